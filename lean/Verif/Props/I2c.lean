import Verif.Model.I2c
import Verif.Spec.I2c
import Mathlib.Data.List.Basic
import Mathlib.Tactic.Ring

set_option autoImplicit false

/-!
# Properties of the bit-banged I2C master and the transaction objects
-/

namespace Props.I2c

open Modm.I2c Modm.Spec.I2c

variable {α τ : Type}

/-- The master wired to devices. -/
def wires (A : App α) : Wires (Bus α) where
  scl := Bus.setScl A
  sda := Bus.setSda A
  readScl := Bus.scl
  readSda := Bus.sda
  delay := Bus.wait

/-- The devices never hold the clock for more than 499 quarters of a period. -/
def Patient (b : Bus α) : Prop := ∀ i, b.stretch i ≤ 499

/-! ## One clock -/

@[simp] theorem rise_mscl (b : Bus α) : b.rise.mscl = b.mscl := by
  unfold Bus.rise; split <;> rfl

@[simp] theorem rise_hold (b : Bus α) : b.rise.hold = b.hold := by
  unfold Bus.rise; split <;> rfl

@[simp] theorem rise_msda (b : Bus α) : b.rise.msda = b.msda := by
  unfold Bus.rise; split <;> rfl

@[simp] theorem rise_ssda (b : Bus α) : b.rise.ssda = b.ssda := by
  unfold Bus.rise; split <;> rfl

@[simp] theorem rise_app (b : Bus α) : b.rise.app = b.app := by
  unfold Bus.rise; split <;> rfl

@[simp] theorem rise_stretch (b : Bus α) : b.rise.stretch = b.stretch := by
  unfold Bus.rise; split <;> rfl

theorem wait_zero (b : Bus α) (n : Nat) (h : b.hold = 0) : b.wait n = b := by
  obtain ⟨app, phase, mscl, msda, ssda, hold, stretch⟩ := b
  simp only at h
  subst h
  simp [Bus.wait]

theorem wait_low (b : Bus α) (n : Nat) (h : b.mscl = false) : b.wait n = { b with hold := b.hold - n } := by
  simp [Bus.wait, Bus.scl, h]

theorem wait_hold (b : Bus α) (n : Nat) (h : n < b.hold) : b.wait n = { b with hold := b.hold - n } := by
  have h1 : b.scl = false := by simp [Bus.scl]; omega
  have h2 : ({ b with hold := b.hold - n } : Bus α).scl = false := by simp [Bus.scl]; omega
  simp only [Bus.wait]
  rw [if_pos (by rw [h1, h2])]

theorem sclWait_bus (A : App α) (d : Nat) (b : Bus α) (hm : b.mscl = true) (hh : b.hold < 2 * d) :
    sclWait (wires A) d b = (true, if b.hold = 0 then b else ({ b with hold := 0 } : Bus α).rise) := by
  induction d generalizing b with
  | zero => omega
  | succ d ih =>
    rw [sclWait]
    by_cases h0 : b.hold = 0
    · have hs : (wires A).readScl b = true := by simp [wires, Bus.scl, hm, h0]
      rw [if_pos hs, if_pos h0]
    · have hs : ¬ (wires A).readScl b = true := by simp [wires, Bus.scl, h0]
      rw [if_neg hs, if_neg h0]
      by_cases h1 : b.hold = 1
      · have hw : (wires A).delay 1 b = ({ b with hold := 0 } : Bus α).rise := by
          simp [wires, Bus.wait, Bus.scl, hm, h1]
        rw [hw, if_pos (by simp [wires, Bus.scl, hm])]
      · have hw : (wires A).delay 1 b = { b with hold := b.hold - 1 } := wait_hold b 1 (by omega)
        rw [hw, if_neg (by simp [wires, Bus.scl]; omega)]
        by_cases h2 : b.hold = 2
        · have hw2 : (wires A).delay 1 { b with hold := b.hold - 1 } = ({ b with hold := 0 } : Bus α).rise := by
            simp [wires, Bus.wait, Bus.scl, hm, h2]
          rw [hw2, ih _ (by simp [hm]) (by simp; omega), if_pos (by simp)]
        · have hw2 : (wires A).delay 1 { b with hold := b.hold - 1 } = { b with hold := b.hold - 2 } := by
            exact wait_hold { b with hold := b.hold - 1 } 1 (by simp; omega)
          rw [hw2, ih { b with hold := b.hold - 2 } hm (by simp; omega), if_neg (by simp; omega)]

/-- Releasing SCL after it was pulled. -/
theorem release_low (A : App α) (b : Bus α) (hm : b.mscl = false) (hh : b.hold ≤ 499) :
    sclSetAndWait (wires A) b = (true, ({ b with mscl := true, hold := 0 } : Bus α).rise) := by
  rw [sclSetAndWait]
  by_cases h0 : b.hold = 0
  · have : (wires A).scl true b = ({ b with mscl := true, hold := 0 } : Bus α).rise := by
      simp only [wires, Bus.setScl, Bus.scl, hm, h0]
      rw [← h0]
      simp
    rw [this, sclWait_bus A 250 _ (by simp) (by simp), if_pos (by simp)]
  · have : (wires A).scl true b = { b with mscl := true } := by
      simp [wires, Bus.setScl, Bus.scl, hm, h0]
    rw [this, sclWait_bus A 250 _ rfl (by simp; omega), if_neg h0]

/-- Releasing SCL when it is released already. -/
theorem release_high (A : App α) (b : Bus α) (hm : b.mscl = true) (hh : b.hold = 0) :
    sclSetAndWait (wires A) b = (true, b) := by
  have : (wires A).scl true b = b := by
    obtain ⟨app, phase, mscl, msda, ssda, hold, stretch⟩ := b
    simp only at hm
    subst hm
    simp [wires, Bus.setScl]
  rw [sclSetAndWait, this, sclWait_bus A 250 _ hm (by omega), if_pos hh]

/-- The bus after one clock. -/
def cycle (A : App α) (b : Bus α) : Bus α :=
  ({ ({ b with mscl := true, hold := 0 } : Bus α).rise with mscl := false } : Bus α).fall A

theorem fall_high (A : App α) (b : Bus α) (hm : b.mscl = true) (hh : b.hold = 0) :
    (wires A).scl false b = ({ b with mscl := false } : Bus α).fall A := by
  simp [wires, Bus.setScl, Bus.scl, hm, hh]

theorem setSda_low (A : App α) (b : Bus α) (x : Bool) (hm : b.mscl = false) :
    (wires A).sda x b = { b with msda := x } := by
  simp [wires, Bus.setSda, Bus.scl, hm]

theorem cycle_hold (A : App α) (b : Bus α) (h : Nat) : cycle A { b with hold := h } = cycle A b := rfl

theorem writeBit_bus (A : App α) (b : Bus α) (x : Bool) (hm : b.mscl = false) (hh : b.hold ≤ 499)
    (hs : b.ssda = true) :
    writeBit (wires A) x b = (true, cycle A { b with msda := x }) := by
  have h1 : (wires A).delay 2 ((wires A).sda x b) = { b with msda := x, hold := b.hold - 2 } := by
    rw [setSda_low A b x hm]
    exact wait_low _ _ hm
  simp only [writeBit]
  rw [h1, if_pos (by simp [wires, Bus.sda, hs]),
    release_low A { b with msda := x, hold := b.hold - 2 } hm (by simp; omega)]
  simp only [if_true]
  rw [show (wires A).delay 2 _ = _ from wait_zero _ 2 (by simp), fall_high A _ (by simp) (by simp)]
  rfl

theorem readBit_bus (A : App α) (b : Bus α) (d : Byte) (hm : b.mscl = false) (hh : b.hold ≤ 499)
    (hs : b.msda = true) :
    readBit (wires A) d b = (true, if b.ssda then d ||| 0x01#8 else d, cycle A b) := by
  have h1 : (wires A).delay 2 b = { b with hold := b.hold - 2 } := wait_low _ _ hm
  simp only [readBit]
  rw [h1, release_low A { b with hold := b.hold - 2 } hm (by simp; omega)]
  simp only [if_true]
  rw [show (wires A).delay 2 _ = _ from wait_zero _ 2 (by simp), fall_high A _ (by simp) (by simp)]
  have : (wires A).readSda ({ b with mscl := true, hold := 0 } : Bus α).rise = b.ssda := by
    simp [wires, Bus.sda, hs]
  simp only [this]
  rfl

/-- SCL is pulled by the master; the devices are in a phase, with a state and an output. -/
structure At (b : Bus α) (ph : Phase) (s : α) (d : Bool) : Prop where
  mscl : b.mscl = false
  hold : b.hold ≤ 499
  patient : Patient b
  phase : b.phase = ph
  app : b.app = s
  ssda : b.ssda = d

theorem At.sda {b : Bus α} {ph : Phase} {s : α} {d : Bool} (h : At b ph s d) (x : Bool) :
    At { b with msda := x } ph s d := ⟨h.1, h.2, h.3, h.4, h.5, h.6⟩

theorem react_mscl (A : App α) (b : Bus α) : (b.react A).mscl = b.mscl := by
  unfold Bus.react Bus.sendByte; dsimp only; (repeat' split) <;> rfl

theorem react_msda (A : App α) (b : Bus α) : (b.react A).msda = b.msda := by
  unfold Bus.react Bus.sendByte; dsimp only; (repeat' split) <;> rfl

theorem react_stretch (A : App α) (b : Bus α) : (b.react A).stretch = b.stretch := by
  unfold Bus.react Bus.sendByte; dsimp only; (repeat' split) <;> rfl

theorem fall_at (A : App α) (b : Bus α) (hm : b.mscl = false) (hp : Patient b) :
    At (b.fall A) (b.react A).phase (b.react A).app (b.react A).ssda := by
  refine ⟨?_, ?_, ?_, rfl, rfl, rfl⟩
  · show (b.react A).mscl = false
    rw [react_mscl, hm]
  · show (b.react A).stretch 0 ≤ 499
    rw [react_stretch]; exact hp 0
  · intro i
    show (b.react A).stretch (i + 1) ≤ 499
    rw [react_stretch]; exact hp (i + 1)

theorem cycle_at (A : App α) (b : Bus α) (hp : Patient b) (c : Bus α)
    (hc : c = ({ ({ b with mscl := true, hold := 0 } : Bus α).rise with mscl := false } : Bus α)) :
    At (cycle A b) (c.react A).phase (c.react A).app (c.react A).ssda := by
  subst hc
  exact fall_at A _ rfl (by intro i; simpa using hp i)

theorem cycle_msda (A : App α) (b : Bus α) : (cycle A b).msda = b.msda := by
  show (Bus.react A _).msda = _
  rw [react_msda]; simp

/-- A bit in the middle of a byte that is received. -/
theorem cycle_recv (A : App α) (b : Bus α) (a : Bool) (bits : List Bool) (s : α)
    (h : At b (.recv a bits) s true) (hl : bits.length < 7) :
    At (cycle A b) (.recv a (bits ++ [b.msda])) s true := by
  have := cycle_at A b h.patient _ rfl
  have hl' : bits.length + 1 ≠ 8 := by omega
  simpa [Bus.rise, Bus.react, h.phase, h.app, h.ssda, Bus.sda, hl'] using this

/-- What the devices do with a byte. -/
def takes (A : App α) (addr : Bool) (data : Byte) (s : α) : Bool × α :=
  if addr then A.address data s else A.write data s

/-- The last bit of a byte that is received. -/
theorem cycle_last (A : App α) (b : Bus α) (a : Bool) (bits : List Bool) (s : α)
    (h : At b (.recv a bits) s true) (hl : bits.length = 7) :
    At (cycle A b)
      (if (takes A a (byteOf (bits ++ [b.msda])) s).1 then
        .ackOut (a && (byteOf (bits ++ [b.msda])).getLsbD 0) else .idle)
      (takes A a (byteOf (bits ++ [b.msda])) s).2
      (!(takes A a (byteOf (bits ++ [b.msda])) s).1) := by
  have := cycle_at A b h.patient _ rfl
  have hl' : bits.length + 1 = 8 := by omega
  cases hk : (takes A a (byteOf (bits ++ [b.msda])) s).1
  · simpa [Bus.rise, Bus.react, h.phase, h.app, h.ssda, Bus.sda, hl', ← takes.eq_1, hk] using this
  · simpa [Bus.rise, Bus.react, h.phase, h.app, h.ssda, Bus.sda, hl', ← takes.eq_1, hk] using this

theorem top_bit (data : Byte) : (data &&& 0x80#8 != 0#8) = data.getLsbD 7 := by
  revert data; decide +kernel

theorem shift_bit (data : Byte) (i : Nat) (hi : i < 7) :
    (data <<< 1).getLsbD (7 - i) = data.getLsbD (7 - (i + 1)) := by
  obtain ⟨j, rfl⟩ : ∃ j : Fin 7, i = j.val := ⟨⟨i, hi⟩, rfl⟩
  revert data j; decide +kernel

theorem byteOf_bitsOf (b : Byte) : byteOf (bitsOf b) = b := by
  revert b; decide +kernel

theorem writeBits_bus (A : App α) (n : Nat) (data : Byte) (b : Bus α) (a : Bool) (bits : List Bool) (s : α)
    (h : At b (.recv a bits) s true) (hl : bits.length + (n + 1) = 8) :
    ∃ b' v, writeBits (wires A) (n + 1) data b = (true, b') ∧
      v = byteOf (bits ++ (List.range (n + 1)).map (fun i => data.getLsbD (7 - i))) ∧
      At b' (if (takes A a v s).1 then .ackOut (a && v.getLsbD 0) else .idle) (takes A a v s).2
        (!(takes A a v s).1) := by
  induction n generalizing data b bits with
  | zero =>
    refine ⟨cycle A { b with msda := data.getLsbD 7 }, _, ?_, rfl, ?_⟩
    · rw [writeBits, top_bit, writeBit_bus A b _ h.mscl h.hold h.ssda]
      simp [writeBits]
    · exact cycle_last A { b with msda := data.getLsbD 7 } a bits s (h.sda _) (by omega)
  | succ n ih =>
    have h1 := cycle_recv A { b with msda := data.getLsbD 7 } a bits s (h.sda _) (by omega)
    obtain ⟨b', v, e, hv, k⟩ := ih (data <<< 1) _ _ h1 (by simp; omega)
    refine ⟨b', v, ?_, ?_, k⟩
    · rw [writeBits, top_bit, writeBit_bus A b _ h.mscl h.hold h.ssda]
      simp only [if_true]
      exact e
    · rw [hv, List.append_assoc]
      congr 2
      rw [List.range_succ_eq_map (n := n + 1), List.map_cons, List.map_map]
      simp only [List.singleton_append]
      congr 1
      apply List.map_congr_left
      intro i hi
      have hi' : i < n + 1 := List.mem_range.mp hi
      rw [shift_bit _ _ (by omega)]
      rfl

/-- Eight bits to a device that receives. -/
theorem writeByte_bus (A : App α) (data : Byte) (b : Bus α) (a : Bool) (s : α)
    (h : At b (.recv a []) s true) :
    ∃ b', writeBits (wires A) 8 data b = (true, b') ∧
      At b' (if (takes A a data s).1 then .ackOut (a && data.getLsbD 0) else .idle) (takes A a data s).2
        (!(takes A a data s).1) := by
  obtain ⟨b', v, e, hv, k⟩ := writeBits_bus A 7 data b a [] s h rfl
  have : v = data := by rw [hv]; exact byteOf_bitsOf data
  subst this
  exact ⟨b', e, k⟩

/-- The devices are about to send, and `s` is their state before that. -/
def Sending (A : App α) (b : Bus α) (s : α) : Prop :=
  At b (.send ((bitsOf (A.read s).1).drop 1)) (A.read s).2 ((bitsOf (A.read s).1).headD true)

theorem cycle_ackOut_send (A : App α) (b : Bus α) (s : α) (d : Bool) (h : At b (.ackOut true) s d) :
    Sending A (cycle A b) s := by
  have := cycle_at A b h.patient _ rfl
  simpa [Bus.rise, Bus.react, h.phase, h.app, Bus.sendByte, Sending] using this

theorem cycle_ackOut_recv (A : App α) (b : Bus α) (s : α) (d : Bool) (h : At b (.ackOut false) s d) :
    At (cycle A b) (.recv false []) s true := by
  have := cycle_at A b h.patient _ rfl
  simpa [Bus.rise, Bus.react, h.phase, h.app] using this

theorem cycle_send (A : App α) (b : Bus α) (x : Bool) (bits : List Bool) (s : α) (d : Bool)
    (h : At b (.send (x :: bits)) s d) : At (cycle A b) (.send bits) s x := by
  have := cycle_at A b h.patient _ rfl
  simpa [Bus.rise, Bus.react, h.phase, h.app] using this

theorem cycle_sent (A : App α) (b : Bus α) (s : α) (d : Bool)
    (h : At b (.send []) s d) : At (cycle A b) (.ackIn none) s true := by
  have := cycle_at A b h.patient _ rfl
  simpa [Bus.rise, Bus.react, h.phase, h.app] using this

theorem cycle_acked (A : App α) (b : Bus α) (s : α) (h : At b (.ackIn none) s true) (hb : b.msda = false) :
    Sending A (cycle A b) (A.acked true s) := by
  have := cycle_at A b h.patient _ rfl
  simpa [Bus.rise, Bus.react, h.phase, h.app, Bus.sda, hb, Bus.sendByte, Sending] using this

theorem cycle_nacked (A : App α) (b : Bus α) (s : α) (h : At b (.ackIn none) s true) (hb : b.msda = true) :
    At (cycle A b) .idle (A.acked false s) true := by
  have := cycle_at A b h.patient _ rfl
  simpa [Bus.rise, Bus.react, h.phase, h.app, Bus.sda, hb, h.ssda] using this

theorem readBits_bus (A : App α) (bits : List Bool) (d : Bool) (v : Byte) (b : Bus α) (s : α)
    (h : At b (.send bits) s d) (hm : b.msda = true) :
    ∃ b', readBits (wires A) (bits.length + 1) v b
        = (true, (d :: bits).foldl (fun (r : Byte) (b : Bool) => (r <<< 1) ||| (if b then 1#8 else 0#8)) v, b') ∧
      At b' (.ackIn none) s true ∧ b'.msda = true := by
  induction bits generalizing d v b with
  | nil =>
    refine ⟨cycle A b, ?_, cycle_sent A b s d h, by rw [cycle_msda, hm]⟩
    simp only [List.length_nil, readBits]
    rw [readBit_bus A b _ h.mscl h.hold hm, h.ssda]
    cases d <;> simp
  | cons x bits ih =>
    obtain ⟨b', e, k1, k2⟩ := ih x (if d then v <<< 1 ||| 0x01#8 else v <<< 1) (cycle A b)
      (cycle_send A b x bits s d h) (by rw [cycle_msda, hm])
    refine ⟨b', ?_, k1, k2⟩
    rw [List.length_cons, readBits, readBit_bus A b _ h.mscl h.hold hm, h.ssda]
    simp only [if_true]
    rw [e]
    cases d <;> simp

theorem readByte_bus (A : App α) (b : Bus α) (s : α) (h : Sending A b s) (hm : b.msda = true) :
    ∃ b', readBits (wires A) 8 0#8 b = (true, (A.read s).1, b') ∧
      At b' (.ackIn none) (A.read s).2 true ∧ b'.msda = true := by
  obtain ⟨b', e, k1, k2⟩ := readBits_bus A _ _ 0#8 b _ h hm
  refine ⟨b', ?_, k1, k2⟩
  have h8 : ((bitsOf (A.read s).1).drop 1).length + 1 = 8 := by simp [bitsOf]
  rw [h8] at e
  rw [e]
  have : (bitsOf (A.read s).1).headD true :: (bitsOf (A.read s).1).drop 1 = bitsOf (A.read s).1 := rfl
  rw [this]
  exact congrArg (fun x => (true, x, b')) (byteOf_bitsOf _)

/-! ## Conditions -/

variable (T : Transaction τ)

/-- Phases in which a condition can be given: nobody sends. -/
def Quiet (ph : Phase) : Prop := ph = .idle ∨ ph = .recv false []

theorem start_free (A : App α) (m : Master (Bus α) τ) (s : α) (h : m.env.Free s) (hp : Patient m.env) :
    ∃ b', startCondition (wires A) T m = (true, { m with env := b' }) ∧
      At b' (.recv true []) (A.start s) true := by
  obtain ⟨env, attached, trans, er, addr, mem⟩ := m
  simp only at h hp
  obtain ⟨h1, h2, h3, h4, h5, h6⟩ := h
  obtain ⟨app, phase, mscl, msda, ssda, hold, stretch⟩ := env
  simp only at h1 h2 h3 h4 h5 h6
  subst h1 h2 h3 h4 h5 h6
  have e1 : (wires A).sda true (⟨app, .idle, true, true, true, 0, stretch⟩ : Bus α)
      = ⟨app, .idle, true, true, true, 0, stretch⟩ := by simp [wires, Bus.setSda]
  have e2 : ∀ n, (wires A).delay n (⟨app, .idle, true, true, true, 0, stretch⟩ : Bus α)
      = ⟨app, .idle, true, true, true, 0, stretch⟩ := fun n => wait_zero (⟨app, .idle, true, true, true, 0, stretch⟩ : Bus α) n rfl
  have e3 : (wires A).sda false (⟨app, .idle, true, true, true, 0, stretch⟩ : Bus α)
      = ⟨A.start app, .recv true [], true, false, true, 0, stretch⟩ := by
    simp [wires, Bus.setSda, Bus.scl, Bus.sda]
  have e4 : (wires A).delay 2 (⟨A.start app, .recv true [], true, false, true, 0, stretch⟩ : Bus α)
      = ⟨A.start app, .recv true [], true, false, true, 0, stretch⟩ :=
    wait_zero (⟨A.start app, .recv true [], true, false, true, 0, stretch⟩ : Bus α) 2 rfl
  simp only [startCondition, e1, e2]
  rw [if_neg (by simp [wires, Bus.sda]), release_high A _ rfl rfl]
  simp only
  rw [if_neg (by simp), e3, e4, fall_high A _ rfl rfl]
  refine ⟨_, rfl, ?_⟩
  have := fall_at A (⟨A.start app, .recv true [], false, false, true, 0, stretch⟩ : Bus α) rfl hp
  rw [show (wires A).delay 2 _ = _ from wait_low _ 2 this.mscl]
  refine ⟨this.mscl, ?_, this.patient, this.phase, this.app, this.ssda⟩
  have := this.hold
  simp only
  omega

theorem start_low (A : App α) (m : Master (Bus α) τ) (ph : Phase) (s : α) (hq : Quiet ph)
    (h : At m.env ph s true) :
    ∃ b', startCondition (wires A) T m = (true, { m with env := b' }) ∧
      At b' (.recv true []) (A.start s) true := by
  obtain ⟨env, attached, trans, er, addr, mem⟩ := m
  simp only at h
  obtain ⟨h1, h2, h3, h4, h5, h6⟩ := h
  obtain ⟨app, phase, mscl, msda, ssda, hold, stretch⟩ := env
  simp only at h1 h2 h4 h5 h6
  subst h1 h4 h5 h6
  have e1 : (wires A).sda true (⟨app, phase, false, msda, true, hold, stretch⟩ : Bus α)
      = ⟨app, phase, false, true, true, hold, stretch⟩ := setSda_low A _ _ rfl
  have e2 : (wires A).delay 1 (⟨app, phase, false, true, true, hold, stretch⟩ : Bus α)
      = ⟨app, phase, false, true, true, hold - 1, stretch⟩ :=
    wait_low (⟨app, phase, false, true, true, hold, stretch⟩ : Bus α) 1 rfl
  simp only [startCondition, e1, e2]
  rw [if_neg (by simp [wires, Bus.sda]), release_low A _ rfl (by simp; omega)]
  simp only
  rw [if_neg (by simp)]
  obtain ⟨ph', hr⟩ : ∃ ph', (⟨app, phase, true, true, true, 0, stretch⟩ : Bus α).rise
      = ⟨app, ph', true, true, true, 0, stretch⟩ := by
    rcases hq with rfl | rfl <;> exact ⟨_, rfl⟩
  have e3 : (wires A).sda false (⟨app, ph', true, true, true, 0, stretch⟩ : Bus α)
      = ⟨A.start app, .recv true [], true, false, true, 0, stretch⟩ := by
    simp [wires, Bus.setSda, Bus.scl, Bus.sda]
  have e4 : (wires A).delay 2 (⟨A.start app, .recv true [], true, false, true, 0, stretch⟩ : Bus α)
      = ⟨A.start app, .recv true [], true, false, true, 0, stretch⟩ :=
    wait_zero (⟨A.start app, .recv true [], true, false, true, 0, stretch⟩ : Bus α) 2 rfl
  rw [hr, e3, e4, fall_high A _ rfl rfl]
  refine ⟨_, rfl, ?_⟩
  have := fall_at A (⟨A.start app, .recv true [], false, false, true, 0, stretch⟩ : Bus α) rfl h3
  rw [show (wires A).delay 2 _ = _ from wait_low _ 2 this.mscl]
  refine ⟨this.mscl, ?_, this.patient, this.phase, this.app, this.ssda⟩
  have := this.hold
  simp only
  omega

theorem stop_low (A : App α) (m : Master (Bus α) τ) (ph : Phase) (s : α) (hq : Quiet ph)
    (h : At m.env ph s true) :
    ∃ b', stopCondition (wires A) T m = (true, { m with env := b' }) ∧ b'.Free (A.stop s) ∧ Patient b' := by
  obtain ⟨env, attached, trans, er, addr, mem⟩ := m
  simp only at h
  obtain ⟨h1, h2, h3, h4, h5, h6⟩ := h
  obtain ⟨app, phase, mscl, msda, ssda, hold, stretch⟩ := env
  simp only at h1 h2 h4 h5 h6
  subst h1 h4 h5 h6
  have e0 : (wires A).scl false (⟨app, phase, false, msda, true, hold, stretch⟩ : Bus α)
      = ⟨app, phase, false, msda, true, hold, stretch⟩ := by simp [wires, Bus.setScl]
  have e1 : (wires A).sda false (⟨app, phase, false, msda, true, hold, stretch⟩ : Bus α)
      = ⟨app, phase, false, false, true, hold, stretch⟩ := setSda_low A _ _ rfl
  simp only [stopCondition, e0, e1]
  rw [release_low A _ rfl h2]
  simp only
  rw [if_neg (by simp)]
  obtain ⟨ph', hr⟩ : ∃ ph', (⟨app, phase, true, false, true, 0, stretch⟩ : Bus α).rise
      = ⟨app, ph', true, false, true, 0, stretch⟩ := by
    rcases hq with rfl | rfl <;> exact ⟨_, rfl⟩
  have e2 : (wires A).delay 2 (⟨app, ph', true, false, true, 0, stretch⟩ : Bus α)
      = ⟨app, ph', true, false, true, 0, stretch⟩ :=
    wait_zero (⟨app, ph', true, false, true, 0, stretch⟩ : Bus α) 2 rfl
  have e3 : (wires A).sda true (⟨app, ph', true, false, true, 0, stretch⟩ : Bus α)
      = ⟨A.stop app, .idle, true, true, true, 0, stretch⟩ := by
    simp [wires, Bus.setSda, Bus.scl, Bus.sda]
  have e4 : (wires A).delay 1 (⟨A.stop app, .idle, true, true, true, 0, stretch⟩ : Bus α)
      = ⟨A.stop app, .idle, true, true, true, 0, stretch⟩ :=
    wait_zero (⟨A.stop app, .idle, true, true, true, 0, stretch⟩ : Bus α) 1 rfl
  rw [hr, e2, e3, e4, if_neg (by simp [wires, Bus.sda])]
  exact ⟨_, rfl, ⟨rfl, rfl, rfl, rfl, rfl, rfl⟩, h3⟩

/-- The master gives up: the bus is free, the transaction has been told, the error is set. -/
structure Failed (m m' : Master (Bus α) τ) (e : Error) (s : α) : Prop where
  free : m'.env.Free s
  patient : Patient m'.env
  attached : m'.attached = false
  trans : m'.trans = if m.attached then T.detaching .errorCondition m.trans else m.trans
  error : m'.error = e
  mem : m'.mem = m.mem

theorem error_high (A : App α) (m : Master (Bus α) τ) (s : α) (e : Error) (hm : m.env.mscl = true)
    (hh : m.env.hold = 0) (hph : m.env.phase = .idle) (ha : m.env.app = s) (hs : m.env.ssda = true)
    (hp : Patient m.env) : Failed T m (error (wires A) T e m) e (A.stop s) := by
  have e1 : (wires A).delay 2 m.env = m.env := wait_zero _ _ hh
  have hf : At (({ m.env with mscl := false } : Bus α).fall A) .idle s true := by
    have := fall_at A { m.env with mscl := false } rfl hp
    simpa [Bus.react, hph, ha, hs] using this
  obtain ⟨b, hb⟩ : ∃ b, b = ({ m.env with mscl := false } : Bus α).fall A := ⟨_, rfl⟩
  rw [← hb] at hf
  have e2 : (wires A).sda false b = { b with msda := false } := setSda_low A b _ hf.mscl
  have e3 : (wires A).delay 2 { b with msda := false } = { b with msda := false, hold := b.hold - 2 } :=
    wait_low _ _ hf.mscl
  have hat : At { b with msda := false, hold := b.hold - 2 } .idle s true :=
    ⟨hf.mscl, by have := hf.hold; simp only; omega, hf.patient, hf.phase, hf.app, hf.ssda⟩
  obtain ⟨b', k1, k2, k3⟩ := stop_low T A { m with env := { b with msda := false, hold := b.hold - 2 } }
    .idle s (Or.inl rfl) hat
  have e4 : (wires A).sda true ((wires A).scl true b') = b' := by
    obtain ⟨app, phase, mscl, msda, ssda, hold, stretch⟩ := b'
    obtain ⟨j1, j2, j3, j4, j5, j6⟩ := k2
    simp only at j1 j2 j3 j4 j5 j6
    subst j3 j4
    simp [wires, Bus.setSda, Bus.setScl]
  simp only [error]
  rw [e1, fall_high A _ hm hh, ← hb, e2, e3, k1]
  simp only
  rw [if_neg (by simp), e4]
  exact ⟨k2, k3, rfl, rfl, rfl, rfl⟩

/-! ## Bytes -/

/-- The devices after an acknowledged byte: they send or they receive. -/
def Ready (A : App α) (b : Bus α) (sending : Bool) (s : α) : Prop :=
  if sending then Sending A b s else At b (.recv false []) s true

theorem write_bus (A : App α) (m : Master (Bus α) τ) (a : Bool) (data : Byte) (s : α)
    (h : At m.env (.recv a []) s true) :
    ((takes A a data s).1 = true →
      ∃ b', write (wires A) T data m = (true, { m with env := b' }) ∧
        Ready A b' (a && data.getLsbD 0) (takes A a data s).2) ∧
    ((takes A a data s).1 = false →
      ∃ m', write (wires A) T data m = (false, m') ∧
        Failed T m m' (if m.address != 0#8 then .addressNack else .dataNack) (A.stop (takes A a data s).2)) := by
  obtain ⟨b, e, k⟩ := writeByte_bus A data m.env a s h
  have e1 : (wires A).delay 2 ((wires A).sda true b) = { b with msda := true, hold := b.hold - 2 } := by
    rw [setSda_low A b _ k.mscl]
    exact wait_low _ _ k.mscl
  have e2 := release_low A { b with msda := true, hold := b.hold - 2 } k.mscl
    (by have := k.hold; simp only; omega)
  have hsda : (wires A).readSda ({ b with msda := true, mscl := true, hold := 0 } : Bus α).rise = b.ssda := by
    simp [wires, Bus.sda]
  constructor
  · intro hk
    rw [hk, if_pos rfl] at k
    refine ⟨cycle A { b with msda := true }, ?_, ?_⟩
    · simp only [write]
      rw [e]
      simp only
      rw [if_neg (by simp), e1, e2]
      simp only
      rw [if_neg (by simp), hsda, k.ssda, if_neg (by simp),
        show (wires A).delay 2 _ = _ from wait_zero _ 2 (by simp), fall_high A _ (by simp) (by simp)]
      rfl
    · cases hr : (a && data.getLsbD 0)
      · rw [hr] at k
        exact cycle_ackOut_recv A _ _ _ (k.sda true)
      · rw [hr] at k
        exact cycle_ackOut_send A _ _ _ (k.sda true)
  · intro hk
    rw [hk] at k
    simp only [Bool.false_eq_true, if_false, Bool.not_false] at k
    have hri : ({ b with msda := true, mscl := true, hold := 0 } : Bus α).rise
        = { b with msda := true, mscl := true, hold := 0 } := by simp [Bus.rise, k.phase]
    have hf := error_high T A { m with env := { b with msda := true, mscl := true, hold := 0 } } _
      (if m.address != 0#8 then .addressNack else .dataNack) rfl rfl k.phase k.app k.ssda k.patient
    refine ⟨_, ?_, ⟨hf.free, hf.patient, hf.attached, hf.trans, hf.error, hf.mem⟩⟩
    simp only [write]
    rw [e]
    simp only
    rw [if_neg (by simp), e1, e2]
    simp only
    rw [if_neg (by simp), hsda, if_pos k.ssda, hri]

theorem read_bus (A : App α) (m : Master (Bus α) τ) (p : Nat) (ack : Bool) (s : α) (h : Sending A m.env s) :
    ∃ b', read (wires A) T p ack m = (true, { m with env := b', mem := Function.update m.mem p (A.read s).1 }) ∧
      if ack then Sending A b' (A.acked true (A.read s).2)
      else At b' .idle (A.acked false (A.read s).2) true := by
  have e1 : (wires A).sda true m.env = { m.env with msda := true } := setSda_low A _ _ h.mscl
  obtain ⟨b, e, k, hm⟩ := readByte_bus A { m.env with msda := true } s
    (show At _ _ _ _ from At.sda h true) rfl
  have e2 := writeBit_bus A b (!ack) k.mscl k.hold k.ssda
  have hl : (cycle A { b with msda := !ack }).mscl = false := (cycle_at A { b with msda := !ack } k.patient _ rfl).mscl
  refine ⟨{ cycle A { b with msda := !ack } with msda := true }, ?_, ?_⟩
  · simp only [Modm.I2c.read]
    rw [e1, e]
    simp only
    rw [if_neg (by simp), e2]
    simp only
    rw [if_neg (by simp), setSda_low A _ _ hl]
  · cases ack
    · exact (cycle_nacked A _ _ (k.sda true) rfl).sda true
    · have := cycle_acked A _ _ (k.sda false) rfl
      exact At.sda this true

/-! ## Sequences of bytes -/

theorem exec_append (A : App α) (l r : List Step) (s : α) :
    exec A (l ++ r) s =
      if (exec A l s).1 = .done then
        ((exec A r (exec A l s).2.2).1, (exec A l s).2.1 ++ (exec A r (exec A l s).2.2).2.1,
          (exec A r (exec A l s).2.2).2.2)
      else exec A l s := by
  induction l generalizing s with
  | nil => simp [exec]
  | cons x l ih =>
    cases x with
    | start a => simp only [List.cons_append, exec]; split <;> simp [ih]
    | write b => simp only [List.cons_append, exec]; split <;> simp [ih]
    | read ack =>
      rw [List.cons_append, exec, exec, ih]
      by_cases h : (exec A l (A.acked ack (A.read s).2)).1 = .done
      · simp only
        rw [if_pos h, if_pos h, List.cons_append]
      · simp only
        rw [if_neg h, if_neg h]
    | stop => simp only [List.cons_append, exec]; exact ih _

/-- The bytes in memory. -/
def bytesAt (mem : Nat → Byte) (p n : Nat) : List Byte := (List.range n).map fun i => mem (p + i)

theorem bytesAt_succ (mem : Nat → Byte) (p n : Nat) :
    bytesAt mem p (n + 1) = mem p :: bytesAt mem (p + 1) n := by
  simp only [bytesAt, List.range_succ_eq_map, List.map_cons, List.map_map, Nat.add_zero, List.cons.injEq,
    true_and]
  refine List.map_congr_left fun i _ => ?_
  simp only [Function.comp_apply]
  congr 1
  omega

theorem writeLoop_bus (A : App α) (n p : Nat) (m : Master (Bus α) τ) (s : α)
    (h : At m.env (.recv false []) s true) (ha : m.address = 0#8) :
    ((exec A ((bytesAt m.mem p n).map .write) s).1 = .done ∧
      ∃ b', writeLoop (wires A) T n p m = (true, { m with env := b' }) ∧
        At b' (.recv false []) (exec A ((bytesAt m.mem p n).map .write) s).2.2 true) ∨
    ((exec A ((bytesAt m.mem p n).map .write) s).1 = .dataNack ∧
      ∃ m', writeLoop (wires A) T n p m = (false, m') ∧
        Failed T m m' .dataNack (exec A ((bytesAt m.mem p n).map .write) s).2.2) := by
  induction n generalizing p m s with
  | zero => exact Or.inl ⟨rfl, m.env, rfl, h⟩
  | succ n ih =>
    rw [bytesAt_succ, List.map_cons]
    have hw := write_bus T A m false (m.mem p) s h
    simp only [takes, Bool.false_eq_true, if_false, Bool.false_and] at hw
    simp only [exec]
    cases hk : (A.write (m.mem p) s).1
    · right
      obtain ⟨m', e, f⟩ := hw.2 hk
      refine ⟨by simp, m', ?_, ?_⟩
      · simp [writeLoop, e]
      · simpa [ha] using f
    · obtain ⟨b', e, f⟩ := hw.1 hk
      simp only [Ready, Bool.false_eq_true, if_false] at f
      have := ih (p + 1) { m with env := b' } _ f ha
      simp only [if_true]
      rcases this with ⟨h1, b'', h2, h3⟩ | ⟨h1, m', h2, h3⟩
      · left
        refine ⟨h1, b'', ?_, h3⟩
        simp only [writeLoop]
        rw [e]
        simpa using h2
      · right
        refine ⟨h1, m', ?_, ⟨h3.free, h3.patient, h3.attached, h3.trans, h3.error, h3.mem⟩⟩
        simp only [writeLoop]
        rw [e]
        simpa using h2

theorem stored_cons (mem : Nat → Byte) (p : Nat) (x : Byte) (l : List Byte) :
    stored (Function.update mem p x) (p + 1) l = stored mem p (x :: l) := by
  funext a
  simp only [stored, Function.update_apply]
  by_cases h1 : p + 1 ≤ a
  · have h2 : a ≠ p := by omega
    have h3 : p ≤ a := by omega
    simp only [h1, h2, h3, if_true, if_false]
    rw [show a - p = (a - (p + 1)) + 1 by omega]
    rfl
  · rw [if_neg h1]
    by_cases h2 : a = p
    · subst h2; simp
    · rw [if_neg h2, if_neg (by omega)]

theorem reads_succ (n : Nat) : reads (n + 2) = .read true :: reads (n + 1) := by
  simp [reads, List.replicate_succ]

theorem reads_done (A : App α) (n : Nat) (s : α) : (exec A (reads n) s).1 = .done := by
  have : ∀ k s, (exec A (List.replicate k (.read true) ++ [.read false]) s).1 = .done := by
    intro k
    induction k with
    | zero => intro s; simp [exec]
    | succ k ih => intro s; simp only [List.replicate_succ, List.cons_append, exec]; exact ih _
  exact this _ _

theorem readLoop_bus (A : App α) (n p : Nat) (m : Master (Bus α) τ) (s : α) (h : Sending A m.env s) :
    ∃ b', readLoop (wires A) T n p m =
        (true, { m with env := b', mem := stored m.mem p (exec A (reads (n + 1)) s).2.1 }) ∧
      At b' .idle (exec A (reads (n + 1)) s).2.2 true := by
  induction n generalizing p m s with
  | zero =>
    obtain ⟨b', e, k⟩ := read_bus T A m p false s h
    refine ⟨b', ?_, k⟩
    rw [readLoop, e]
    simp only [reads, Nat.sub_self, Nat.zero_add, List.replicate_zero, List.nil_append, exec]
    rw [← stored_cons]
    congr 2
    funext a
    simp [stored]
  | succ n ih =>
    obtain ⟨b', e, k⟩ := read_bus T A m p true s h
    rw [if_pos rfl] at k
    obtain ⟨b'', e2, k2⟩ := ih (p + 1)
      { m with env := b', mem := Function.update m.mem p (A.read s).1 } _ k
    refine ⟨b'', ?_, ?_⟩
    · rw [readLoop, e]
      simp only [if_true]
      rw [e2, reads_succ]
      simp only [exec, stored_cons]
    · rw [reads_succ]
      exact k2

/-- START and the address. -/
theorem begin_bus (A : App α) (m : Master (Bus α) τ) (s : α)
    (h : (m.env.Free s ∧ Patient m.env) ∨ ∃ ph, Quiet ph ∧ At m.env ph s true) (a : Byte)
    (haddr : a = ((T.starting m.trans).1.address &&& 0xfe#8) |||
      (if (T.starting m.trans).1.next = .read then 0x01#8 else 0#8)) :
    ((A.address a (A.start s)).1 = true →
      ∃ b', begin_ (wires A) T m = (true, (T.starting m.trans).1.next,
          { m with env := b', trans := (T.starting m.trans).2, address := 0#8 }) ∧
        Ready A b' (a.getLsbD 0) (A.address a (A.start s)).2) ∧
    ((A.address a (A.start s)).1 = false →
      ∃ m', begin_ (wires A) T m = (false, .stop, m') ∧
        Failed T { m with trans := (T.starting m.trans).2 } m'
          (if (T.starting m.trans).1.address != 0#8 then .addressNack else .dataNack)
          (A.stop (A.address a (A.start s)).2)) := by
  obtain ⟨b1, e1, k1⟩ : ∃ b', startCondition (wires A) T m = (true, { m with env := b' }) ∧
      At b' (.recv true []) (A.start s) true := by
    rcases h with ⟨hf, hp⟩ | ⟨ph, hq, hat⟩
    · exact start_free T A m s hf hp
    · exact start_low T A m ph s hq hat
  have hw := write_bus T A (⟨b1, m.attached, (T.starting m.trans).2, m.error,
    (T.starting m.trans).1.address, m.mem⟩ : Master (Bus α) τ) true a (A.start s) k1
  simp only [takes, if_true, Bool.true_and] at hw
  constructor
  · intro hk
    obtain ⟨b', e, f⟩ := hw.1 hk
    refine ⟨b', ?_, f⟩
    simp only [begin_]
    rw [e1]
    simp only
    rw [if_neg (by simp), ← haddr, e]
    simp
  · intro hk
    obtain ⟨m', e, f⟩ := hw.2 hk
    refine ⟨m', ?_, ⟨f.free, f.patient, f.attached, f.trans, f.error, f.mem⟩⟩
    simp only [begin_]
    rw [e1]
    simp only
    rw [if_neg (by simp), ← haddr, e]
    simp

/-- The last operation. -/
theorem finish_bus (A : App α) (k : Nat) (m : Master (Bus α) τ) (ph : Phase) (s : α) (hq : Quiet ph)
    (h : At m.env ph s true) :
    ∃ b', loop (wires A) T (k + 1) .stop m =
        some { m with env := b', trans := T.detaching .normalStop m.trans, attached := false } ∧
      b'.Free (A.stop s) ∧ Patient b' := by
  obtain ⟨b', e, f, g⟩ := stop_low T A { m with trans := T.detaching .normalStop m.trans, attached := false }
    ph s hq h
  refine ⟨b', ?_, f, g⟩
  simp only [loop]
  rw [e]

/-! ## C108: a transaction on the bus -/

/-- How the master reports the outcome. -/
def errorOf : Outcome → Error
  | .done => .noError
  | .addressNack => .addressNack
  | .dataNack => .dataNack

/-- A transfer has happened: the devices saw these steps, the bytes read are at `p`, nobody pulls a
line, the transaction is over and knows the outcome. -/
structure Happened (A : App α) (steps : List Step) (s : α) (p : Nat) (state : τ → State)
    (m m' : Master (Bus α) τ) : Prop where
  free : m'.env.Free (exec A steps s).2.2
  patient : Patient m'.env
  attached : m'.attached = false
  state : state m'.trans = if (exec A steps s).1 = .done then .idle else .error
  error : m'.error = errorOf (exec A steps s).1
  mem : m'.mem = stored m.mem p (exec A steps s).2.1

theorem stored_nil (mem : Nat → Byte) (p : Nat) : stored mem p [] = mem := by
  funext a; simp [stored]

theorem address_write (a : Byte) : (a <<< 1 &&& 0xfe#8) ||| 0#8 = a <<< 1 := by
  revert a; decide +kernel

theorem address_read (a : Byte) : (a <<< 1 &&& 0xfe#8) ||| 1#8 = a <<< 1 ||| 1#8 := by
  revert a; decide +kernel

theorem address_write_bit (a : Byte) : (a <<< 1).getLsbD 0 = false := by simp

theorem address_read_bit (a : Byte) : (a <<< 1 ||| 1#8).getLsbD 0 = true := by simp

/-- The part of a transaction that reads: from START on. -/
theorem reading_bus (A : App α) (k : Nat) (m : Master (Bus α) τ) (s : α) (address : Byte) (p n : Nat)
    (state : τ → State)
    (h : (m.env.Free s ∧ Patient m.env) ∨ ∃ ph, Quiet ph ∧ At m.env ph s true)
    (hs : (T.starting m.trans).1 = ⟨address <<< 1, .read⟩)
    (hr : (T.reading (T.starting m.trans).2).1 = ⟨some p, n, .stop⟩) (hn : n ≠ 0)
    (ha : address <<< 1 ≠ 0#8) (hatt : m.attached = true) (herr : m.error = .noError)
    (hd : ∀ c t, state (T.detaching c t) = detachState c) :
    ∃ m', loop (wires A) T (k + 3) .restart m = some m' ∧
      Happened A (.start (address <<< 1 ||| 1#8) :: reads n ++ [.stop]) s p state m m' := by
  obtain ⟨n, rfl⟩ := Nat.exists_eq_succ_of_ne_zero hn
  have hb := begin_bus T A m s h (address <<< 1 ||| 1#8) (by rw [hs]; simp [address_read])
  rw [hs] at hb
  simp only [address_read_bit] at hb
  cases hk : (A.address (address <<< 1 ||| 1#8) (A.start s)).1
  · obtain ⟨m', e, f⟩ := hb.2 hk
    refine ⟨m', ?_, ?_⟩
    · rw [loop, e]; simp
    · have e2 : exec A (.start (address <<< 1 ||| 1#8) :: reads (n + 1) ++ [.stop]) s
          = (.addressNack, [], A.stop (A.address (address <<< 1 ||| 1#8) (A.start s)).2) := by
        rw [List.cons_append, exec]; simp [hk]
      have hne : (address <<< 1 != 0#8) = true := by simpa using ha
      constructor
      · rw [e2]; exact f.free
      · exact f.patient
      · exact f.attached
      · rw [e2, f.trans]; simp [hatt, hd, detachState]
      · rw [e2, f.error, hne]; rfl
      · rw [e2, f.mem, stored_nil]
  · obtain ⟨b', e, f⟩ := hb.1 hk
    simp only [Ready, if_true] at f
    obtain ⟨b2, e3, k3⟩ := readLoop_bus T A n p (⟨b', m.attached,
      (T.reading (T.starting m.trans).2).2, m.error, 0#8, m.mem⟩ : Master (Bus α) τ) _ f
    obtain ⟨b3, e4, k4, k5⟩ := finish_bus T A k (⟨b2, m.attached,
      (T.reading (T.starting m.trans).2).2, m.error, 0#8,
      stored m.mem p (exec A (reads (n + 1)) (A.address (address <<< 1 ||| 1#8) (A.start s)).2).2.1⟩ :
        Master (Bus α) τ) .idle _ (Or.inl rfl) k3
    have e2 : exec A (.start (address <<< 1 ||| 1#8) :: reads (n + 1) ++ [.stop]) s
        = (.done, (exec A (reads (n + 1)) (A.address (address <<< 1 ||| 1#8) (A.start s)).2).2.1,
          A.stop (exec A (reads (n + 1)) (A.address (address <<< 1 ||| 1#8) (A.start s)).2).2.2) := by
      rw [List.cons_append, exec]
      simp only [hk, if_true]
      rw [exec_append, if_pos (reads_done A _ _)]
      simp [exec]
    refine ⟨⟨b3, false, T.detaching .normalStop (T.reading (T.starting m.trans).2).2, m.error, 0#8,
      stored m.mem p (exec A (reads (n + 1)) (A.address (address <<< 1 ||| 1#8) (A.start s)).2).2.1⟩, ?_, ?_⟩
    · rw [loop, e]
      simp only
      rw [if_neg (by simp), loop]
      simp only [hr, Nat.succ_eq_add_one, Nat.add_sub_cancel]
      rw [e3]
      simp only
      rw [if_neg (by simp), e4]
    · constructor
      · rw [e2]; exact k4
      · exact k5
      · rfl
      · rw [e2]; simp [hd, detachState]
      · rw [e2]; exact herr
      · rw [e2]

/-- The part of a transaction that addresses the device for writing: from START to before the next
condition. -/
theorem addressing_bus (A : App α) (m : Master (Bus α) τ) (s : α) (address : Byte) (next : Operation)
    (hq : m.env.Free s ∧ Patient m.env) (hs : (T.starting m.trans).1 = ⟨address <<< 1, next⟩)
    (hne : next ≠ .read) (ha : address <<< 1 ≠ 0#8) :
    ((A.address (address <<< 1) (A.start s)).1 = true →
      ∃ b', begin_ (wires A) T m = (true, next,
          ⟨b', m.attached, (T.starting m.trans).2, m.error, 0#8, m.mem⟩) ∧
        At b' (.recv false []) (A.address (address <<< 1) (A.start s)).2 true) ∧
    ((A.address (address <<< 1) (A.start s)).1 = false →
      ∃ m', begin_ (wires A) T m = (false, .stop, m') ∧
        Failed T ⟨m.env, m.attached, (T.starting m.trans).2, m.error, m.address, m.mem⟩ m'
          .addressNack (A.stop (A.address (address <<< 1) (A.start s)).2)) := by
  have hb := begin_bus T A m s (Or.inl hq) (address <<< 1) (by rw [hs]; simp only [hne, if_false, address_write])
  have hz : (address <<< 1 != 0#8) = true := by simpa using ha
  rw [hs] at hb
  simp only [address_write_bit, hz, Ready, Bool.false_eq_true, if_false] at hb
  exact hb

theorem writes_nil (A : App α) (bytes : List Byte) (s : α) : (exec A (bytes.map .write) s).2.1 = [] := by
  induction bytes generalizing s with
  | nil => rfl
  | cons x l ih =>
    simp only [List.map_cons, exec]
    split
    · exact ih _
    · rfl

/-- A transaction that writes, and reads afterwards if `n ≠ 0`. -/
theorem writing_bus (A : App α) (k : Nat) (m : Master (Bus α) τ) (s : α) (address : Byte) (wb : Option Nat)
    (ws p n : Nat) (state : τ → State) (bytes : List Byte)
    (hq : m.env.Free s ∧ Patient m.env)
    (hs : (T.starting m.trans).1 = ⟨address <<< 1, .write⟩)
    (hw : (T.writing (T.starting m.trans).2).1 = ⟨wb, ws, if n ≠ 0 then .restart else .stop⟩)
    (hbytes : bytes = match wb with | none => [] | some q => bytesAt m.mem q ws)
    (hs2 : n ≠ 0 → (T.starting (T.writing (T.starting m.trans).2).2).1 = ⟨address <<< 1, .read⟩)
    (hr : n ≠ 0 → (T.reading (T.starting (T.writing (T.starting m.trans).2).2).2).1 = ⟨some p, n, .stop⟩)
    (ha : address <<< 1 ≠ 0#8) (hatt : m.attached = true) (herr : m.error = .noError)
    (hd : ∀ c t, state (T.detaching c t) = detachState c) :
    ∃ m', loop (wires A) T (k + 5) .restart m = some m' ∧
      Happened A ((.start (address <<< 1) :: bytes.map .write) ++
        (if n ≠ 0 then .start (address <<< 1 ||| 1#8) :: reads n else []) ++ [.stop]) s p state m m' := by
  obtain ⟨rest, hrest⟩ : ∃ rest, rest = (if n ≠ 0 then Step.start (address <<< 1 ||| 1#8) :: reads n else []) ++
    [.stop] := ⟨_, rfl⟩
  rw [List.append_assoc, ← hrest, List.cons_append]
  have hb := addressing_bus T A m s address .write hq hs (by simp) ha
  cases hk : (A.address (address <<< 1) (A.start s)).1
  · obtain ⟨m', e, f⟩ := hb.2 hk
    refine ⟨m', ?_, ?_⟩
    · rw [loop, e]; simp
    · have e2 : exec A (.start (address <<< 1) :: (bytes.map .write ++ rest)) s
          = (.addressNack, [], A.stop (A.address (address <<< 1) (A.start s)).2) := by
        rw [exec]; simp [hk]
      constructor
      · rw [e2]; exact f.free
      · exact f.patient
      · exact f.attached
      · rw [e2, f.trans]; simp [hatt, hd, detachState]
      · rw [e2, f.error]; rfl
      · rw [e2, f.mem, stored_nil]
  · obtain ⟨b', e, f⟩ := hb.1 hk
    have e2 : exec A (.start (address <<< 1) :: (bytes.map .write ++ rest)) s
        = exec A (bytes.map .write ++ rest) (A.address (address <<< 1) (A.start s)).2 := by
      rw [exec]; simp [hk]
    obtain ⟨s1, hs1⟩ : ∃ s1, s1 = (A.address (address <<< 1) (A.start s)).2 := ⟨_, rfl⟩
    rw [← hs1] at f e2
    -- the writing of the bytes
    have hloop : loop (wires A) T (k + 5) .restart m = loop (wires A) T (k + 4) .write
        ⟨b', m.attached, (T.starting m.trans).2, m.error, 0#8, m.mem⟩ := by
      rw [loop, e]; simp
    have hbody : ((exec A (bytes.map .write) s1).1 = .done ∧ ∃ b2,
          loop (wires A) T (k + 5) .restart m = loop (wires A) T (k + 3) (if n ≠ 0 then .restart else .stop)
            ⟨b2, m.attached, (T.writing (T.starting m.trans).2).2, m.error, 0#8, m.mem⟩ ∧
          At b2 (.recv false []) (exec A (bytes.map .write) s1).2.2 true) ∨
        ((exec A (bytes.map .write) s1).1 = .dataNack ∧ ∃ m',
          loop (wires A) T (k + 5) .restart m = some m' ∧
          Failed T ⟨b', m.attached, (T.writing (T.starting m.trans).2).2, m.error, 0#8, m.mem⟩ m' .dataNack
            (exec A (bytes.map .write) s1).2.2) := by
      rw [hloop, loop, hw]
      cases wb with
      | none =>
        left
        rw [hbytes]
        exact ⟨rfl, b', rfl, f⟩
      | some q =>
        simp only at hbytes
        rw [hbytes]
        rcases writeLoop_bus T A ws q
          (⟨b', m.attached, (T.writing (T.starting m.trans).2).2, m.error, 0#8, m.mem⟩ : Master (Bus α) τ)
          s1 f rfl with ⟨h1, b2, h2, h3⟩ | ⟨h1, m', h2, h3⟩
        · left
          refine ⟨h1, b2, ?_, h3⟩
          simp only
          rw [h2]
          simp
        · right
          refine ⟨h1, m', ?_, h3⟩
          simp only
          rw [h2]
          simp
    have hnil := writes_nil A bytes s1
    rcases hbody with ⟨h1, b2, h2, h3⟩ | ⟨h1, m', h2, h3⟩
    · have e3 : exec A (.start (address <<< 1) :: (bytes.map .write ++ rest)) s
          = exec A rest (exec A (bytes.map .write) s1).2.2 := by
        rw [e2, exec_append, if_pos h1, hnil]; simp
      by_cases hn : n = 0
      · subst hn
        simp only [ne_eq, not_true, if_false, List.nil_append] at h2 hrest
        obtain ⟨b3, e4, k4, k5⟩ := finish_bus T A (k + 2)
          (⟨b2, m.attached, (T.writing (T.starting m.trans).2).2, m.error, 0#8, m.mem⟩ : Master (Bus α) τ)
          _ _ (Or.inr rfl) h3
        refine ⟨_, h2.trans e4, ?_⟩
        have e5 : exec A rest (exec A (bytes.map .write) s1).2.2
            = (.done, [], A.stop (exec A (bytes.map .write) s1).2.2) := by
          rw [hrest]; rfl
        constructor
        · rw [e3, e5]; exact k4
        · exact k5
        · rfl
        · rw [e3, e5]; simp [hd, detachState]
        · rw [e3, e5]; exact herr
        · rw [e3, e5, stored_nil]
      · rw [if_pos hn] at h2
        obtain ⟨m', e4, k4⟩ := reading_bus T A k
          (⟨b2, m.attached, (T.writing (T.starting m.trans).2).2, m.error, 0#8, m.mem⟩ : Master (Bus α) τ)
          _ address p n state (Or.inr ⟨_, Or.inr rfl, h3⟩) (hs2 hn) (hr hn) hn ha hatt herr hd
        rw [if_pos hn] at hrest
        rw [← hrest] at k4
        refine ⟨m', h2.trans e4, ?_⟩
        constructor
        · rw [e3]; exact k4.free
        · exact k4.patient
        · exact k4.attached
        · rw [e3]; exact k4.state
        · rw [e3]; exact k4.error
        · rw [e3]; exact k4.mem
    · have e3 : exec A (.start (address <<< 1) :: (bytes.map .write ++ rest)) s
          = (.dataNack, [], (exec A (bytes.map .write) s1).2.2) := by
        rw [e2, exec_append, if_neg (by simp [h1])]
        exact Prod.ext h1 (Prod.ext hnil rfl)
      refine ⟨m', h2, ?_⟩
      constructor
      · rw [e3]; exact h3.free
      · exact h3.patient
      · exact h3.attached
      · rw [e3, h3.trans]; simp [hatt, hd, detachState]
      · rw [e3, h3.error]; rfl
      · rw [e3, h3.mem, stored_nil]

/-- A transaction without data. -/
theorem ping_bus (A : App α) (k : Nat) (m : Master (Bus α) τ) (s : α) (address : Byte) (p : Nat)
    (state : τ → State) (hq : m.env.Free s ∧ Patient m.env)
    (hs : (T.starting m.trans).1 = ⟨address <<< 1, .stop⟩)
    (ha : address <<< 1 ≠ 0#8) (hatt : m.attached = true) (herr : m.error = .noError)
    (hd : ∀ c t, state (T.detaching c t) = detachState c) :
    ∃ m', loop (wires A) T (k + 2) .restart m = some m' ∧
      Happened A [.start (address <<< 1), .stop] s p state m m' := by
  have hb := addressing_bus T A m s address .stop hq hs (by simp) ha
  cases hk : (A.address (address <<< 1) (A.start s)).1
  · obtain ⟨m', e, f⟩ := hb.2 hk
    refine ⟨m', ?_, ?_⟩
    · rw [loop, e]; simp
    · have e2 : exec A [.start (address <<< 1), .stop] s
          = (.addressNack, [], A.stop (A.address (address <<< 1) (A.start s)).2) := by
        rw [exec]; simp [hk]
      constructor
      · rw [e2]; exact f.free
      · exact f.patient
      · exact f.attached
      · rw [e2, f.trans]; simp [hatt, hd, detachState]
      · rw [e2, f.error]; rfl
      · rw [e2, f.mem, stored_nil]
  · obtain ⟨b', e, f⟩ := hb.1 hk
    obtain ⟨b3, e4, k4, k5⟩ := finish_bus T A k
      (⟨b', m.attached, (T.starting m.trans).2, m.error, 0#8, m.mem⟩ : Master (Bus α) τ)
      _ _ (Or.inr rfl) f
    have e5 : exec A [.start (address <<< 1), .stop] s
        = (.done, [], A.stop (A.address (address <<< 1) (A.start s)).2) := by
      rw [exec]; simp [hk, exec]
    refine ⟨⟨b3, false, T.detaching .normalStop (T.starting m.trans).2, m.error, 0#8, m.mem⟩, ?_, ?_⟩
    · rw [loop, e]
      simp only
      rw [if_neg (by simp), e4]
    · constructor
      · rw [e5]; exact k4
      · exact k5
      · rfl
      · rw [e5]; simp [hd, detachState]
      · rw [e5]; exact herr
      · rw [e5, stored_nil]

theorem start_attached {σ τ : Type} (w : Wires σ) (T : Transaction τ) (k : Nat) (t t' : τ) (m : Master σ τ)
    (hm : m.attached = false) (h : T.attaching t = (true, t')) :
    start w T k t m = (loop w T k .restart ⟨m.env, true, t', .noError, m.address, m.mem⟩).map (true, ·) := by
  simp [start, hm, h]

/-- **C108**: an `I2cWriteReadTransaction` that is not busy and has been configured does on the bus
what was asked for: the devices see START, the address, the bytes of the buffer, a repeated START
if something is to be read, and STOP; the bytes they send are in the read buffer, and nothing else
is changed; when a byte is not acknowledged, the transfer ends there.  Afterwards, nobody pulls a
line, and the master and the object know the outcome. -/
theorem C108_write_read (A : App α) (k : Nat) (m : Master (Bus α) WriteRead) (s : α) (t : WriteRead)
    (address : Byte) (wb ws rb rs : Nat)
    (hfree : m.env.Free s) (hp : Patient m.env) (hm : m.attached = false)
    (ht : t.address = address <<< 1) (hb : t.state ≠ .busy) (ha : address <<< 1 ≠ 0#8) :
    ∃ m', start (wires A) writeRead (k + 5)
        (t.configure (if ws = 0 then none else some wb) ws (if rs = 0 then none else some rb) rs).2 m
        = some (true, m') ∧
      Happened A (transfer address (bytesAt m.mem wb ws) rs) s rb WriteRead.state m m' := by
  have hd : ∀ c t, WriteRead.state (writeRead.detaching c t) = detachState c := fun c t => rfl
  have e1 : attachState t.state = (true, .busy) := by simp [attachState, hb]
  rw [WriteRead.configure, if_neg hb, start_attached (wires A) writeRead (k + 5) _
    ⟨t.address, .busy, rs, ws, if rs = 0 then none else some rb, if ws = 0 then none else some wb,
      decide (ws = 0)⟩ m hm (by simp [writeRead, e1])]
  by_cases hws : ws = 0
  · subst hws
    by_cases hrs : rs = 0
    · subst hrs
      obtain ⟨m', e, h⟩ := ping_bus writeRead A (k + 3)
        (⟨m.env, true, ⟨t.address, .busy, 0, 0, none, none, true⟩, .noError, m.address, m.mem⟩)
        s address rb WriteRead.state ⟨hfree, hp⟩ (by simp [writeRead, ht]) ha rfl rfl hd
      refine ⟨m', ?_, ?_⟩
      · simp only [if_true, decide_true]
        rw [e]; rfl
      · exact ⟨h.free, h.patient, h.attached, h.state, h.error, h.mem⟩
    · obtain ⟨m', e, h⟩ := reading_bus writeRead A (k + 2)
        (⟨m.env, true, ⟨t.address, .busy, rs, 0, some rb, none, true⟩, .noError, m.address, m.mem⟩)
        s address rb rs WriteRead.state (Or.inl ⟨hfree, hp⟩) (by simp [writeRead, ht, hrs])
        (by simp [writeRead, lengthOf]) hrs ha rfl rfl hd
      refine ⟨m', ?_, ?_⟩
      · simp only [hrs, if_false, if_true, decide_true]
        rw [e]; rfl
      · have : transfer address (bytesAt m.mem wb 0) rs
            = .start (address <<< 1 ||| 1#8) :: reads rs ++ [.stop] := by
          simp [transfer, bytesAt, hrs]
        rw [this]
        exact ⟨h.free, h.patient, h.attached, h.state, h.error, h.mem⟩
  · obtain ⟨m', e, h⟩ := writing_bus writeRead A k
      (⟨m.env, true, ⟨t.address, .busy, rs, ws, if rs = 0 then none else some rb, some wb, false⟩, .noError,
        m.address, m.mem⟩)
      s address (some wb) ws rb rs WriteRead.state (bytesAt m.mem wb ws) ⟨hfree, hp⟩
      (by simp [writeRead, ht, hws]) (by simp [writeRead, lengthOf]) rfl
      (fun hn => by simp [writeRead, ht, hn]) (fun hn => by simp [writeRead, lengthOf, hn]) ha rfl rfl hd
    refine ⟨m', ?_, ?_⟩
    · simp only [hws, if_false, decide_false]
      rw [e]; rfl
    · have hne : bytesAt m.mem wb ws ≠ [] := by simp [bytesAt, hws]
      have : transfer address (bytesAt m.mem wb ws) rs
          = (.start (address <<< 1) :: (bytesAt m.mem wb ws).map .write) ++
            (if rs ≠ 0 then .start (address <<< 1 ||| 1#8) :: reads rs else []) ++ [.stop] := by
        simp [transfer, hne]
      rw [this]
      exact ⟨h.free, h.patient, h.attached, h.state, h.error, h.mem⟩

/-- An `I2cWriteTransaction` with its buffer. -/
theorem write_object (A : App α) (k : Nat) (m : Master (Bus α) OneWay) (s : α) (t : OneWay)
    (address : Byte) (p n : Nat)
    (hfree : m.env.Free s) (hp : Patient m.env) (hm : m.attached = false)
    (ht : t.address = address <<< 1) (hb : t.state ≠ .busy) (ha : address <<< 1 ≠ 0#8)
    (h1 : t.buffer = if n = 0 then none else some p) (h2 : t.size = n) :
    ∃ m', start (wires A) onlyWrite (k + 5) t m = some (true, m') ∧
      Happened A (transfer address (bytesAt m.mem p n) 0) s 0 OneWay.state m m' := by
  have hd : ∀ c t, OneWay.state (onlyWrite.detaching c t) = detachState c := fun c t => rfl
  have e1 : attachState t.state = (true, .busy) := by simp [attachState, hb]
  rw [start_attached (wires A) onlyWrite (k + 5) _
    ⟨t.address, .busy, n, if n = 0 then none else some p⟩ m hm (by simp [onlyWrite, e1, h1, h2])]
  by_cases hn : n = 0
  · subst hn
    obtain ⟨m', e, h⟩ := ping_bus onlyWrite A (k + 3)
      (⟨m.env, true, ⟨t.address, .busy, 0, none⟩, .noError, m.address, m.mem⟩)
      s address 0 OneWay.state ⟨hfree, hp⟩ (by simp [onlyWrite, ht]) ha rfl rfl hd
    refine ⟨m', ?_, ?_⟩
    · simp only [if_true]
      rw [e]; rfl
    · exact ⟨h.free, h.patient, h.attached, h.state, h.error, h.mem⟩
  · obtain ⟨m', e, h⟩ := writing_bus onlyWrite A k
      (⟨m.env, true, ⟨t.address, .busy, n, some p⟩, .noError, m.address, m.mem⟩)
      s address (some p) n 0 0 OneWay.state (bytesAt m.mem p n) ⟨hfree, hp⟩
      (by simp [onlyWrite, ht, hn]) (by simp [onlyWrite, lengthOf]) rfl
      (fun h => absurd rfl h) (fun h => absurd rfl h) ha rfl rfl hd
    refine ⟨m', ?_, ?_⟩
    · simp only [hn, if_false]
      rw [e]; rfl
    · have hne : bytesAt m.mem p n ≠ [] := by simp [bytesAt, hn]
      have : transfer address (bytesAt m.mem p n) 0
          = (.start (address <<< 1) :: (bytesAt m.mem p n).map .write) ++
            (if 0 ≠ 0 then .start (address <<< 1 ||| 1#8) :: reads 0 else []) ++ [.stop] := by
        simp [transfer]
      rw [this]
      exact ⟨h.free, h.patient, h.attached, h.state, h.error, h.mem⟩

/-- An `I2cReadTransaction` with its buffer. -/
theorem read_object (A : App α) (k : Nat) (m : Master (Bus α) OneWay) (s : α) (t : OneWay)
    (address : Byte) (p n : Nat)
    (hfree : m.env.Free s) (hp : Patient m.env) (hm : m.attached = false)
    (ht : t.address = address <<< 1) (hb : t.state ≠ .busy) (ha : address <<< 1 ≠ 0#8)
    (h1 : t.buffer = if n = 0 then none else some p) (h2 : t.size = n) :
    ∃ m', start (wires A) onlyRead (k + 5) t m = some (true, m') ∧
      Happened A (transfer address [] n) s p OneWay.state m m' := by
  have hd : ∀ c t, OneWay.state (onlyRead.detaching c t) = detachState c := fun c t => rfl
  have e1 : attachState t.state = (true, .busy) := by simp [attachState, hb]
  rw [start_attached (wires A) onlyRead (k + 5) _
    ⟨t.address, .busy, n, if n = 0 then none else some p⟩ m hm (by simp [onlyRead, e1, h1, h2])]
  by_cases hn : n = 0
  · subst hn
    obtain ⟨m', e, h⟩ := ping_bus onlyRead A (k + 3)
      (⟨m.env, true, ⟨t.address, .busy, 0, none⟩, .noError, m.address, m.mem⟩)
      s address p OneWay.state ⟨hfree, hp⟩ (by simp [onlyRead, ht]) ha rfl rfl hd
    refine ⟨m', ?_, ?_⟩
    · simp only [if_true]
      rw [e]; rfl
    · exact ⟨h.free, h.patient, h.attached, h.state, h.error, h.mem⟩
  · obtain ⟨m', e, h⟩ := reading_bus onlyRead A (k + 2)
      (⟨m.env, true, ⟨t.address, .busy, n, some p⟩, .noError, m.address, m.mem⟩)
      s address p n OneWay.state (Or.inl ⟨hfree, hp⟩) (by simp [onlyRead, ht, hn])
      (by simp [onlyRead, lengthOf]) hn ha rfl rfl hd
    refine ⟨m', ?_, ?_⟩
    · simp only [hn, if_false]
      rw [e]; rfl
    · have : transfer address [] n = .start (address <<< 1 ||| 1#8) :: reads n ++ [.stop] := by
        simp [transfer, hn]
      rw [this]
      exact ⟨h.free, h.patient, h.attached, h.state, h.error, h.mem⟩

/-- **C108**, for an `I2cWriteTransaction`. -/
theorem C108_write (A : App α) (k : Nat) (m : Master (Bus α) OneWay) (s : α) (t : OneWay)
    (address : Byte) (p n : Nat)
    (hfree : m.env.Free s) (hp : Patient m.env) (hm : m.attached = false)
    (ht : t.address = address <<< 1) (hb : t.state ≠ .busy) (ha : address <<< 1 ≠ 0#8) :
    ∃ m', start (wires A) onlyWrite (k + 5) (t.configureWrite (if n = 0 then none else some p) n).2 m
        = some (true, m') ∧
      Happened A (transfer address (bytesAt m.mem p n) 0) s 0 OneWay.state m m' := by
  rw [OneWay.configureWrite, if_neg hb]
  exact write_object A k m s _ address p n hfree hp hm ht hb ha rfl
    (by by_cases hn : n = 0 <;> simp [hn, lengthOf])

/-- **C108**, for an `I2cReadTransaction`. -/
theorem C108_read (A : App α) (k : Nat) (m : Master (Bus α) OneWay) (s : α) (t : OneWay)
    (address : Byte) (p n : Nat)
    (hfree : m.env.Free s) (hp : Patient m.env) (hm : m.attached = false)
    (ht : t.address = address <<< 1) (hb : t.state ≠ .busy) (ha : address <<< 1 ≠ 0#8) :
    ∃ m', start (wires A) onlyRead (k + 5) (t.configureRead (if n = 0 then none else some p) n).2 m
        = some (true, m') ∧
      Happened A (transfer address [] n) s p OneWay.state m m' := by
  rw [OneWay.configureRead, if_neg hb]
  exact read_object A k m s _ address p n hfree hp hm ht hb ha rfl rfl

/-- A device with the address 0x1e: it acknowledges two bytes after each START, counts what it sends, and
keeps a record of all that happens. -/
def recorder : App (List Nat) where
  start l := 1000 :: l
  address a l := (a = 0x3c#8 || a = 0x3d#8, (2000 + a.toNat) :: l)
  write b l := (decide ((l.takeWhile (· ≠ 1000)).length < 3), (3000 + b.toNat) :: l)
  read l := (BitVec.ofNat 8 (l.length * 37), (4000 + l.length) :: l)
  acked a l := (if a then 5001 else 5000) :: l
  stop l := 6000 :: l

/-- The bus before, with some stretching. -/
def bus0 : Bus (List Nat) := ⟨[], .idle, true, true, true, 0, fun i => (i % 7) * 80⟩

def master0 {τ : Type} (t : τ) : Master (Bus (List Nat)) τ :=
  ⟨bus0, false, t, .noError, 0#8, fun a => BitVec.ofNat 8 (a * 3)⟩

theorem bus0_free : bus0.Free [] := ⟨rfl, rfl, rfl, rfl, rfl, rfl⟩
theorem bus0_patient : Patient bus0 := fun i => by simp only [bus0]; omega

/-- What of a transfer is compared below. -/
def outline {α : Type} {τ : Type} (state : τ → State) (r : Option (Bool × Master (Bus α) τ)) :
    Option (Bool × Error × State × List Byte × α) :=
  r.map fun r => (r.1, r.2.error, state r.2.trans, [r.2.mem 100, r.2.mem 101, r.2.mem 102], r.2.env.app)

example : ∃ m', start (wires recorder) writeRead 5
      ((WriteRead.new 0x1e#8).configure (some 7) 2 (some 100) 2).2 (master0 (WriteRead.new 0x1e#8))
      = some (true, m') ∧
    Happened recorder (transfer 0x1e#8 (bytesAt (fun a => BitVec.ofNat 8 (a * 3)) 7 2) 2) [] 100 WriteRead.state
      (master0 (WriteRead.new 0x1e#8)) m' :=
  C108_write_read recorder 0 _ [] _ 0x1e#8 7 2 100 2 bus0_free bus0_patient rfl rfl (by decide) (by decide)

/-- Two bytes written, two read. -/
example : outline WriteRead.state (start (wires recorder) writeRead 5
      ((WriteRead.new 0x1e#8).configure (some 7) 2 (some 100) 2).2 (master0 (WriteRead.new 0x1e#8)))
    = some (true, .noError, .idle, [0xde#8, 0x28#8, 50#8],
      [6000, 5000, 4008, 5001, 4006, 2061, 1000, 3024, 3021, 2060, 1000]) := by decide +kernel

/-- The third byte is not acknowledged. -/
example : outline WriteRead.state (start (wires recorder) writeRead 5
      ((WriteRead.new 0x1e#8).configure (some 7) 4 (some 100) 2).2 (master0 (WriteRead.new 0x1e#8)))
    = some (true, .dataNack, .error, [44#8, 47#8, 50#8], [6000, 3027, 3024, 3021, 2060, 1000]) := by
  decide +kernel

/-- Nobody answers. -/
example : outline OneWay.state (start (wires recorder) onlyWrite 5
      ((OneWay.new 0x22#8).configureWrite (some 7) 4).2 (master0 (OneWay.new 0x22#8)))
    = some (true, .addressNack, .error, [44#8, 47#8, 50#8], [6000, 2068, 1000]) := by decide +kernel

example : ∃ m', start (wires recorder) onlyWrite 5 ((OneWay.new 0x22#8).configureWrite (some 7) 4).2
      (master0 (OneWay.new 0x22#8)) = some (true, m') ∧
    Happened recorder (transfer 0x22#8 (bytesAt (fun a => BitVec.ofNat 8 (a * 3)) 7 4) 0) [] 0 OneWay.state
      (master0 (OneWay.new 0x22#8)) m' :=
  C108_write recorder 0 _ [] _ 0x22#8 7 4 bus0_free bus0_patient rfl rfl (by decide) (by decide)

example : ∃ m', start (wires recorder) onlyRead 5 ((OneWay.new 0x1e#8).configureRead (some 100) 3).2
      (master0 (OneWay.new 0x1e#8)) = some (true, m') ∧
    Happened recorder (transfer 0x1e#8 [] 3) [] 100 OneWay.state (master0 (OneWay.new 0x1e#8)) m' :=
  C108_read recorder 0 _ [] _ 0x1e#8 100 3 bus0_free bus0_patient rfl rfl (by decide) (by decide)

/-- **C108** is false for the general call address 0: the address byte not being acknowledged is
reported as data not being acknowledged. -/
theorem C108_general_call_counterexample :
    (exec recorder (transfer 0#8 [1#8] 0) []).1 = .addressNack ∧
    (outline OneWay.state (start (wires recorder) onlyWrite 5 ((OneWay.new 0#8).configureWrite (some 7) 1).2
      (master0 (OneWay.new 0#8)))).map (·.2.1) = some .dataNack := by decide +kernel

/-- **C108** is false for a device that pulls SCL for longer than 500 quarters of a period: the transfer
ends, although the device would have gone on. -/
theorem C108_stretch_counterexample :
    (exec recorder (transfer 0x1e#8 [21#8] 0) []).1 = .done ∧
    (outline OneWay.state (start (wires recorder) onlyWrite 5 ((OneWay.new 0x1e#8).configureWrite (some 7) 1).2
      { master0 (OneWay.new 0x1e#8) with env := { bus0 with stretch := fun i => if i = 3 then 504 else 0 } })).map
        (fun r => (r.2.1, r.2.2.1)) = some (.arbitrationLost, .error) := by decide +kernel

/-! ## C109: the end of a transaction, for any bus -/

section
variable {σ : Type} (w : Wires σ) (state : τ → State)

/-- A transaction is over. -/
structure Ended (m : Master σ τ) : Prop where
  attached : m.attached = false
  busy : state m.trans ≠ .busy
  good : m.error = .noError → state m.trans = .idle
  bad : state m.trans = .error → m.error ≠ .noError

variable {T} (hd : ∀ c t, state (T.detaching c t) = detachState c)
include hd

theorem giveUp_ended (e : Error) (m : Master σ τ) (ha : m.attached = true) (he : e ≠ .noError) :
    Ended state (giveUp T e m) := by
  have : state (T.detaching .errorCondition m.trans) = .error := hd _ _
  constructor <;> simp [giveUp, ha, this, he]

theorem startCondition_ended (m : Master σ τ) (ha : m.attached = true) :
    ((startCondition w T m).1 = false → Ended state (startCondition w T m).2) ∧
    ((startCondition w T m).1 = true → ∃ s, (startCondition w T m).2 = { m with env := s }) := by
  simp only [startCondition]
  repeat' split
  · exact ⟨fun _ => giveUp_ended state hd _ _ ha (by simp), by simp⟩
  · exact ⟨fun _ => giveUp_ended state hd _ _ ha (by simp), by simp⟩
  · exact ⟨by simp, fun _ => ⟨_, rfl⟩⟩

theorem stopCondition_ended (m : Master σ τ) (ha : m.attached = true) :
    ((stopCondition w T m).1 = false → Ended state (stopCondition w T m).2) ∧
    ((stopCondition w T m).1 = true → ∃ s, (stopCondition w T m).2 = { m with env := s }) := by
  simp only [stopCondition]
  repeat' split
  · exact ⟨fun _ => giveUp_ended state hd _ _ ha (by simp), by simp⟩
  · exact ⟨fun _ => giveUp_ended state hd _ _ ha (by simp), by simp⟩
  · exact ⟨by simp, fun _ => ⟨_, rfl⟩⟩

theorem error_ended (e : Error) (m : Master σ τ) (ha : m.attached = true) (he : e ≠ .noError) :
    Ended state (error w T e m) := by
  simp only [error]
  have := stopCondition_ended w state hd
    { m with env := w.delay 2 (w.sda false (w.scl false (w.delay 2 m.env))) } ha
  split
  · rename_i h
    have h1 := this.1 h
    exact ⟨h1.attached, h1.busy, fun h => absurd h he, fun _ => he⟩
  · rename_i h
    obtain ⟨s, hs⟩ := this.2 (by simpa using h)
    rw [hs]
    exact giveUp_ended state hd e _ ha he

theorem write_ended (data : Byte) (m : Master σ τ) (ha : m.attached = true) :
    ((write w T data m).1 = false → Ended state (write w T data m).2) ∧
    ((write w T data m).1 = true → ∃ s, (write w T data m).2 = { m with env := s }) := by
  simp only [write]
  repeat' split
  · exact ⟨fun _ => error_ended w state hd _ _ ha (by simp), by simp⟩
  · exact ⟨fun _ => error_ended w state hd _ _ ha (by simp), by simp⟩
  · exact ⟨fun _ => error_ended w state hd _ _ ha (by simp), by simp⟩
  · exact ⟨fun _ => error_ended w state hd _ _ ha (by simp), by simp⟩
  · exact ⟨by simp, fun _ => ⟨_, rfl⟩⟩

theorem read_ended (p : Nat) (ack : Bool) (m : Master σ τ) (ha : m.attached = true) :
    ((Modm.I2c.read w T p ack m).1 = false → Ended state (Modm.I2c.read w T p ack m).2) ∧
    ((Modm.I2c.read w T p ack m).1 = true →
      ∃ s v, (Modm.I2c.read w T p ack m).2 = { m with env := s, mem := Function.update m.mem p v }) := by
  simp only [Modm.I2c.read]
  repeat' split
  · exact ⟨fun _ => error_ended w state hd _ _ ha (by simp), by simp⟩
  · exact ⟨fun _ => error_ended w state hd _ _ ha (by simp), by simp⟩
  · exact ⟨by simp, fun _ => ⟨_, _, rfl⟩⟩

theorem writeLoop_ended (n p : Nat) (m : Master σ τ) (ha : m.attached = true) :
    ((writeLoop w T n p m).1 = false → Ended state (writeLoop w T n p m).2) ∧
    ((writeLoop w T n p m).1 = true → ∃ s, (writeLoop w T n p m).2 = { m with env := s }) := by
  induction n generalizing p m with
  | zero => exact ⟨by simp [writeLoop], fun _ => ⟨m.env, rfl⟩⟩
  | succ n ih =>
    simp only [writeLoop]
    have h := write_ended w state hd (m.mem p) m ha
    split
    · rename_i h1
      obtain ⟨s, hs⟩ := h.2 h1
      rw [hs]
      exact ih (p + 1) { m with env := s } ha
    · rename_i h1
      exact ⟨h.1, fun h2 => absurd h2 h1⟩

theorem readLoop_ended (n p : Nat) (m : Master σ τ) (ha : m.attached = true) :
    ((readLoop w T n p m).1 = false → Ended state (readLoop w T n p m).2) ∧
    ((readLoop w T n p m).1 = true →
      ∃ s mem, (readLoop w T n p m).2 = { m with env := s, mem := mem }) := by
  induction n generalizing p m with
  | zero =>
    have h := read_ended w state hd p false m ha
    simp only [readLoop]
    exact ⟨h.1, fun h1 => by obtain ⟨s, v, hs⟩ := h.2 h1; exact ⟨s, _, hs⟩⟩
  | succ n ih =>
    simp only [readLoop]
    have h := read_ended w state hd p true m ha
    split
    · rename_i h1
      obtain ⟨s, v, hs⟩ := h.2 h1
      rw [hs]
      have := ih (p + 1) { m with env := s, mem := Function.update m.mem p v } ha
      exact ⟨this.1, this.2⟩
    · rename_i h1
      exact ⟨h.1, fun h2 => absurd h2 h1⟩

theorem begin_ended (m : Master σ τ) (ha : m.attached = true) :
    ((begin_ w T m).1 = false → Ended state (begin_ w T m).2.2) ∧
    ((begin_ w T m).1 = true → ∃ s, (begin_ w T m).2 = ((T.starting m.trans).1.next,
      ⟨s, true, (T.starting m.trans).2, m.error, 0#8, m.mem⟩)) := by
  simp only [begin_]
  have h := startCondition_ended w state hd m ha
  split
  · rename_i h1
    exact ⟨fun _ => h.1 h1, by simp⟩
  · rename_i h1
    obtain ⟨s, hs⟩ := h.2 (by simpa using h1)
    rw [hs]
    obtain ⟨m1, hm1⟩ : ∃ m1 : Master σ τ, m1 = ⟨s, m.attached, (T.starting m.trans).2, m.error,
      (T.starting m.trans).1.address, m.mem⟩ := ⟨_, rfl⟩
    obtain ⟨a, haa⟩ : ∃ a, a = ((T.starting m.trans).1.address &&& 0xfe#8) |||
      (if (T.starting m.trans).1.next = .read then 0x01#8 else 0#8) := ⟨_, rfl⟩
    simp only [← hm1, ← haa]
    have g := write_ended w state hd a m1 (by rw [hm1]; exact ha)
    split
    · rename_i h2
      exact ⟨fun _ => g.1 h2, by simp⟩
    · rename_i h2
      obtain ⟨s', hs'⟩ := g.2 (by simpa using h2)
      refine ⟨by simp, fun _ => ⟨s', ?_⟩⟩
      rw [hs', hm1, ← ha]

theorem loop_ended (k : Nat) (op : Operation) (m m' : Master σ τ) (ha : m.attached = true)
    (he : m.error = .noError) (h : loop w T k op m = some m') : Ended state m' := by
  induction k generalizing op m with
  | zero => simp [loop] at h
  | succ k ih =>
    cases op with
    | restart =>
      simp only [loop] at h
      have g := begin_ended w state hd m ha
      split at h
      · rename_i h1
        simp only [Option.some.injEq] at h
        subst h
        exact g.1 h1
      · rename_i h1
        obtain ⟨s, hs⟩ := g.2 (by simpa using h1)
        rw [hs] at h
        exact ih _ ⟨s, true, (T.starting m.trans).2, m.error, 0#8, m.mem⟩ rfl he h
    | read =>
      simp only [loop] at h
      split at h
      · simp at h
      · rename_i p hp
        have g := readLoop_ended w state hd ((T.reading m.trans).1.length - 1) p
          { m with trans := (T.reading m.trans).2 } ha
        split at h
        · rename_i h1
          simp only [Option.some.injEq] at h
          subst h
          exact g.1 h1
        · rename_i h1
          obtain ⟨s, t, hs⟩ := g.2 (by simpa using h1)
          rw [hs] at h
          exact ih _ { m with trans := (T.reading m.trans).2, env := s, mem := t } ha he h
    | write =>
      simp only [loop] at h
      split at h
      · exact ih _ { m with trans := (T.writing m.trans).2 } ha he h
      · rename_i p hp
        have g := writeLoop_ended w state hd (T.writing m.trans).1.length p
          { m with trans := (T.writing m.trans).2 } ha
        split at h
        · rename_i h1
          simp only [Option.some.injEq] at h
          subst h
          exact g.1 h1
        · rename_i h1
          obtain ⟨s, hs⟩ := g.2 (by simpa using h1)
          rw [hs] at h
          exact ih _ { m with trans := (T.writing m.trans).2, env := s } ha he h
    | stop =>
      simp only [loop, Option.some.injEq] at h
      subst h
      have hs : state (T.detaching .normalStop m.trans) = .idle := hd _ _
      simp only [stopCondition]
      (repeat' split) <;> constructor <;> simp [giveUp, hs]

end

/-- **C109**: whatever the bus does, when `start` has returned `true`, the master is free for the next
transaction, the object is not busy, it has finished normally if the master has no error, and the
master has an error if the object has. -/
theorem C109_over {σ : Type} (w : Wires σ) (T : Transaction τ) (state : τ → State)
    (hd : ∀ c t, state (T.detaching c t) = detachState c) (k : Nat) (t : τ) (m m' : Master σ τ)
    (h : start w T k t m = some (true, m')) : Ended state m' := by
  simp only [start] at h
  split at h
  · simp at h
  · split at h
    · simp at h
    · obtain ⟨r, hr, h⟩ := Option.map_eq_some_iff.mp h
      simp only [Prod.mk.injEq, true_and] at h
      subst h
      exact loop_ended w state hd k .restart _ _ rfl rfl hr

/-- **C109**: while a transaction is attached, `start` does nothing. -/
theorem C109_occupied {σ : Type} (w : Wires σ) (T : Transaction τ) (k : Nat) (t : τ) (m : Master σ τ)
    (h : m.attached = true) : start w T k t m = some (false, m) := by
  simp [start, h]

example : (start (wires recorder) onlyWrite 5 (OneWay.new 0x1e#8)
    { master0 (OneWay.new 0x1e#8) with attached := true }).map (·.1) = some false := by decide +kernel

section
variable {σ : Type} (w : Wires σ)

theorem error_mem (e : Error) (m : Master σ τ) : (error w T e m).mem = m.mem := by
  simp only [error, stopCondition]
  (repeat' split) <;> simp [giveUp]

theorem write_mem (data : Byte) (m : Master σ τ) : (write w T data m).2.mem = m.mem := by
  simp only [write]
  (repeat' split) <;> simp [error_mem]

theorem writeLoop_mem (n p : Nat) (m : Master σ τ) : (writeLoop w T n p m).2.mem = m.mem := by
  induction n generalizing p m with
  | zero => rfl
  | succ n ih =>
    simp only [writeLoop]
    split
    · rw [ih, write_mem]
    · exact write_mem T w _ m

theorem read_mem (p : Nat) (ack : Bool) (m : Master σ τ) (a : Nat) (ha : a ≠ p) :
    (Modm.I2c.read w T p ack m).2.mem a = m.mem a := by
  simp only [Modm.I2c.read]
  (repeat' split) <;> simp [error_mem, ha]

theorem readLoop_mem (n p : Nat) (m : Master σ τ) (a : Nat) (ha : a < p ∨ p + n < a) :
    (readLoop w T n p m).2.mem a = m.mem a := by
  induction n generalizing p m with
  | zero => exact read_mem T w p false m a (by omega)
  | succ n ih =>
    simp only [readLoop]
    split
    · rw [ih _ _ (by omega), read_mem T w p true m a (by omega)]
    · exact read_mem T w p true m a (by omega)

theorem begin_mem (m : Master σ τ) : (begin_ w T m).2.2.mem = m.mem := by
  have : (startCondition w T m).2.mem = m.mem := by
    simp only [startCondition]
    (repeat' split) <;> simp [giveUp]
  simp only [begin_]
  split
  · exact this
  · (repeat' split) <;> simp [write_mem, this]

/-- The operations come to an end and only `n` bytes at `p` are changed. -/
def Done (p n : Nat) (m : Master σ τ) (o : Option (Master σ τ)) : Prop :=
  ∃ m', o = some m' ∧ ∀ a, (a < p ∨ p + n ≤ a) → m'.mem a = m.mem a

theorem stop_done (p n k : Nat) (m : Master σ τ) : Done p n m (loop w T (k + 1) .stop m) := by
  refine ⟨_, rfl, fun a _ => ?_⟩
  simp only [stopCondition]
  (repeat' split) <;> simp [giveUp]

theorem read_done (p n k : Nat) (state : τ → State)
    (hd : ∀ c t, state (T.detaching c t) = detachState c) (m : Master σ τ) (ha : m.attached = true)
    (h : (T.reading m.trans).1 = ⟨some p, n, .stop⟩) (hn : n ≠ 0) :
    Done p n m (loop w T (k + 2) .read m) := by
  rw [loop]
  simp only [h]
  have hf := fun a => readLoop_mem T w (n - 1) p { m with trans := (T.reading m.trans).2 } a
  have g := readLoop_ended w state hd (n - 1) p { m with trans := (T.reading m.trans).2 } ha
  split
  · exact ⟨_, rfl, fun a h => hf a (by omega)⟩
  · rename_i h1
    obtain ⟨s, mem, hs⟩ := g.2 (by simpa using h1)
    rw [hs] at hf ⊢
    obtain ⟨m', e, hm⟩ := stop_done T w p n k { m with trans := (T.reading m.trans).2, env := s, mem := mem }
    exact ⟨m', e, fun a h => by rw [hm a h]; exact hf a (by omega)⟩

theorem write_done (p n k : Nat) (state : τ → State)
    (hd : ∀ c t, state (T.detaching c t) = detachState c) (m : Master σ τ) (ha : m.attached = true)
    (next : Operation) (hnx : (T.writing m.trans).1.next = next)
    (h : ∀ s, Done p n m (loop w T k next { m with env := s, trans := (T.writing m.trans).2 })) :
    Done p n m (loop w T (k + 1) .write m) := by
  rw [loop]
  simp only [hnx]
  split
  · exact h m.env
  · rename_i q hq
    have hf := writeLoop_mem T w (T.writing m.trans).1.length q { m with trans := (T.writing m.trans).2 }
    have g := writeLoop_ended w state hd (T.writing m.trans).1.length q
      { m with trans := (T.writing m.trans).2 } ha
    split
    · exact ⟨_, rfl, fun a _ => by rw [hf]⟩
    · rename_i h1
      obtain ⟨s, hs⟩ := g.2 (by simpa using h1)
      rw [hs]
      exact h s

theorem restart_done (p n k : Nat) (state : τ → State)
    (hd : ∀ c t, state (T.detaching c t) = detachState c) (m : Master σ τ) (ha : m.attached = true)
    (h : ∀ s, Done p n m (loop w T k (T.starting m.trans).1.next
      ⟨s, true, (T.starting m.trans).2, m.error, 0#8, m.mem⟩)) :
    Done p n m (loop w T (k + 1) .restart m) := by
  rw [loop]
  have hf := begin_mem T w m
  have g := begin_ended w state hd m ha
  split
  · exact ⟨_, rfl, fun a _ => by rw [hf]⟩
  · rename_i h1
    obtain ⟨s, hs⟩ := g.2 (by simpa using h1)
    rw [hs]
    exact h s

theorem Done.trans {p n : Nat} {m m1 : Master σ τ} {o : Option (Master σ τ)} (h : Done p n m1 o)
    (e : m1.mem = m.mem) : Done p n m o := by
  obtain ⟨m', e1, h⟩ := h
  exact ⟨m', e1, fun a ha => by rw [h a ha, e]⟩

end

/-- **C109**: whatever the bus does, `start` returns, and changes no memory but the read buffer. -/
theorem C109_returns {σ : Type} (w : Wires σ) (k : Nat) (m : Master σ WriteRead) (t : WriteRead)
    (wb rb : Option Nat) (ws rs p : Nat) (hm : m.attached = false) (hb : t.state ≠ .busy)
    (hr : rs ≠ 0 → rb = some p) :
    ∃ m', start w writeRead (k + 5) (t.configure wb ws rb rs).2 m = some (true, m') ∧
      ∀ a, (a < p ∨ p + rs ≤ a) → m'.mem a = m.mem a := by
  have hd : ∀ c t, WriteRead.state (writeRead.detaching c t) = detachState c := fun c t => rfl
  have e1 : attachState t.state = (true, .busy) := by simp [attachState, hb]
  rw [WriteRead.configure, if_neg hb, start_attached w writeRead (k + 5) _
    ⟨t.address, .busy, rs, ws, rb, wb, decide (ws = 0)⟩ m hm (by simp [writeRead, e1])]
  obtain ⟨m0, hm0⟩ : ∃ m0 : Master σ WriteRead, m0 = ⟨m.env, true,
    ⟨t.address, .busy, rs, ws, rb, wb, decide (ws = 0)⟩, .noError, m.address, m.mem⟩ := ⟨_, rfl⟩
  suffices hh : Done p rs m0 (loop w writeRead (k + 5) .restart m0) by
    obtain ⟨m', e, h⟩ := hh
    refine ⟨m', ?_, fun a ha => ?_⟩
    · rw [← hm0, e]; rfl
    · rw [h a ha, hm0]
  apply restart_done writeRead w p rs (k + 4) _ hd m0 (by rw [hm0])
  intro s
  rw [hm0]
  by_cases hws : ws = 0
  · by_cases hrs : rs = 0
    · simp only [writeRead, hws, hrs, decide_true, if_true, ne_eq, not_true, if_false]
      exact (stop_done writeRead w p 0 (k + 3) _).trans rfl
    · have : (writeRead.starting ⟨t.address, .busy, rs, ws, rb, wb, decide (ws = 0)⟩).1.next = .read := by
        simp [writeRead, hws, hrs]
      simp only [this]
      exact (read_done writeRead w p rs (k + 2) _ hd _ rfl (by simp [writeRead, hr hrs, lengthOf]) hrs).trans rfl
  · have : (writeRead.starting ⟨t.address, .busy, rs, ws, rb, wb, decide (ws = 0)⟩).1.next = .write := by
      simp [writeRead, hws]
    simp only [this]
    refine (write_done writeRead w p rs (k + 3) _ hd _ rfl _ rfl fun s => ?_).trans rfl
    by_cases hrs : rs = 0
    · simp only [writeRead, hrs, ne_eq, not_true, if_false]
      exact (stop_done writeRead w p 0 (k + 2) _).trans rfl
    · simp only [writeRead, hrs, ne_eq, not_false_eq_true, if_true, decide_true]
      refine (restart_done writeRead w p rs (k + 2) _ hd _ rfl fun s => ?_).trans rfl
      simp only [writeRead, hrs, ne_eq, not_false_eq_true, if_true]
      exact (read_done writeRead w p rs k _ hd _ rfl (by simp [writeRead, hr hrs, lengthOf]) hrs).trans rfl

/-- Pins that cannot be moved: SCL and SDA read as given. -/
def stuck (scl sda : Bool) : Wires Nat where
  scl _ n := n
  sda _ n := n
  readScl _ := scl
  readSda _ := sda
  delay k n := n + k

example : ((start (stuck false true) writeRead 5
      ((WriteRead.new 0x1e#8).configure (some 7) 2 (some 100) 2).2
      ⟨0, false, WriteRead.new 0x1e#8, .noError, 0#8, fun _ => 0#8⟩).map
        fun r => (r.1, r.2.error, r.2.trans.state, r.2.attached)) = some (true, .busBusy, .error, false) := by
  decide +kernel

/-- **C109** is false for the object of a transfer whose STOP fails: the object has finished normally,
though the master reports an error.  (The device pulls SCL for too long after its last
acknowledge.) -/
theorem C109_stop_counterexample :
    ((start (wires recorder) onlyWrite 5 ((OneWay.new 0x1e#8).configureWrite (some 7) 1).2
        { master0 (OneWay.new 0x1e#8) with env := { bus0 with stretch := fun i => if i = 18 then 600 else 0 } }).map
      fun r => (r.1, r.2.error, r.2.trans.state)) = some (true, .busCondition, .idle) := by decide +kernel

/-- **C109** is false for the lines: when SCL is stuck low, `start` returns with SDA still being
pulled by the master ("releases bus lines"). -/
theorem C109_lines_counterexample :
    ((start (wires recorder) onlyWrite 5 ((OneWay.new 0x1e#8).configureWrite (some 7) 1).2
        { master0 (OneWay.new 0x1e#8) with env := { bus0 with stretch := fun i => if i = 3 then 2000 else 0 } }).map
      fun r => (r.1, r.2.error, r.2.env.msda)) = some (true, .arbitrationLost, false) := by decide +kernel

/-- **C109** is false for an object that is busy already: `start` returns `false`, but has changed the
state of the object to an error, although "calling this method has no effect" then. -/
theorem C109_busy_counterexample {σ : Type} (w : Wires σ) (k : Nat) (m : Master σ OneWay) (t : OneWay)
    (hm : m.attached = false) (hb : t.state = .busy) :
    ∃ m', start w onlyWrite k t m = some (false, m') ∧ m'.trans.state = .error := by
  refine ⟨{ m with trans := { t with state := .error } }, ?_, rfl⟩
  simp [start, hm, onlyWrite, attachState, hb, detachState]

example : ({ OneWay.new 0x1e#8 with state := .busy } : OneWay).state = .busy := rfl

/-! ## C110: the transaction objects -/

/-- **C110**: a busy object cannot be configured, an object that is not busy can, and has nothing but
its buffers changed. -/
theorem C110_configure (t : WriteRead) (u : OneWay) (wb rb : Option Nat) (ws rs : Nat) :
    (t.state = .busy → t.configure wb ws rb rs = (false, t)) ∧
    (t.state ≠ .busy → (t.configure wb ws rb rs).1 = true ∧
      (t.configure wb ws rb rs).2.state = t.state ∧ (t.configure wb ws rb rs).2.address = t.address) ∧
    (u.state = .busy → u.configureWrite wb ws = (false, u) ∧ u.configureRead rb rs = (false, u)) ∧
    (u.state ≠ .busy → (u.configureWrite wb ws).1 = true ∧ (u.configureRead rb rs).1 = true ∧
      (u.configureWrite wb ws).2.state = u.state ∧ (u.configureWrite wb ws).2.address = u.address ∧
      (u.configureRead rb rs).2.state = u.state ∧ (u.configureRead rb rs).2.address = u.address) := by
  refine ⟨fun h => ?_, fun h => ?_, fun h => ?_, fun h => ?_⟩
  · simp [WriteRead.configure, h]
  · simp [WriteRead.configure, h]
  · simp [OneWay.configureWrite, OneWay.configureRead, h]
  · simp [OneWay.configureWrite, OneWay.configureRead, h]

/-- **C110**: an object can be attached if and only if it is not busy; then it is. -/
theorem C110_attach (t : WriteRead) (u : OneWay) :
    ((writeRead.attaching t).1 = true ↔ t.state ≠ .busy) ∧ (writeRead.attaching t).2.state = .busy ∧
    ((onlyWrite.attaching u).1 = true ↔ u.state ≠ .busy) ∧ (onlyWrite.attaching u).2.state = .busy ∧
    ((onlyRead.attaching u).1 = true ↔ u.state ≠ .busy) ∧ (onlyRead.attaching u).2.state = .busy := by
  have h1 : ∀ s, (attachState s).1 = true ↔ s ≠ .busy := by intro s; cases s <;> simp [attachState]
  have h2 : ∀ s, (attachState s).2 = .busy := by intro s; cases s <;> simp [attachState]
  exact ⟨h1 _, h2 _, h1 _, h2 _, h1 _, h2 _⟩

example : (WriteRead.configure (some 1) 2 none 0 (WriteRead.new 0x1e#8)).2.writeSize = 2 := rfl

section
variable {σ : Type} (w : Wires σ) (I : τ → Prop) {T}
variable (h2 : ∀ t, I t → I (T.starting t).2) (h3 : ∀ t, I t → I (T.writing t).2)
  (h4 : ∀ t, I t → I (T.reading t).2) (h5 : ∀ c t, I t → I (T.detaching c t))

include h5

theorem giveUp_inv (e : Error) (m : Master σ τ) (h : I m.trans) : I (giveUp T e m).trans := by
  simp only [giveUp]
  split
  · exact h5 _ _ h
  · exact h

theorem stopCondition_inv (m : Master σ τ) (h : I m.trans) : I (stopCondition w T m).2.trans := by
  simp only [stopCondition]
  repeat' split
  · exact giveUp_inv I h5 _ _ h
  · exact giveUp_inv I h5 _ _ h
  · exact h

theorem startCondition_inv (m : Master σ τ) (h : I m.trans) : I (startCondition w T m).2.trans := by
  simp only [startCondition]
  repeat' split
  · exact giveUp_inv I h5 _ _ h
  · exact giveUp_inv I h5 _ _ h
  · exact h

theorem error_inv (e : Error) (m : Master σ τ) (h : I m.trans) : I (error w T e m).trans := by
  simp only [error]
  have := stopCondition_inv w I h5 { m with env := w.delay 2 (w.sda false (w.scl false (w.delay 2 m.env))) } h
  split
  · exact this
  · exact giveUp_inv I h5 _ _ this

theorem write_inv (data : Byte) (m : Master σ τ) (h : I m.trans) : I (write w T data m).2.trans := by
  simp only [write]
  repeat' split
  all_goals first | exact error_inv w I h5 _ _ h | exact h

theorem read_inv (p : Nat) (ack : Bool) (m : Master σ τ) (h : I m.trans) :
    I (Modm.I2c.read w T p ack m).2.trans := by
  simp only [Modm.I2c.read]
  repeat' split
  all_goals first | exact error_inv w I h5 _ _ h | exact h

theorem writeLoop_inv (n p : Nat) (m : Master σ τ) (h : I m.trans) : I (writeLoop w T n p m).2.trans := by
  induction n generalizing p m with
  | zero => exact h
  | succ n ih =>
    simp only [writeLoop]
    have := write_inv w I h5 (m.mem p) m h
    split
    · exact ih _ _ this
    · exact this

theorem readLoop_inv (n p : Nat) (m : Master σ τ) (h : I m.trans) : I (readLoop w T n p m).2.trans := by
  induction n generalizing p m with
  | zero => exact read_inv w I h5 p false m h
  | succ n ih =>
    simp only [readLoop]
    have := read_inv w I h5 p true m h
    split
    · exact ih _ _ this
    · exact this

include h2

theorem begin_inv (m : Master σ τ) (h : I m.trans) : I (begin_ w T m).2.2.trans := by
  simp only [begin_]
  have g := startCondition_inv w I h5 m h
  split
  · exact g
  · obtain ⟨a, haa⟩ : ∃ a, a = ((T.starting (startCondition w T m).2.trans).1.address &&& 0xfe#8) |||
      (if (T.starting (startCondition w T m).2.trans).1.next = .read then 0x01#8 else 0#8) := ⟨_, rfl⟩
    rw [← haa]
    have := write_inv w I h5 a { (startCondition w T m).2 with
      trans := (T.starting (startCondition w T m).2.trans).2,
      address := (T.starting (startCondition w T m).2.trans).1.address } (h2 _ g)
    split <;> exact this

include h3 h4

theorem loop_inv (k : Nat) (op : Operation) (m m' : Master σ τ) (hi : I m.trans)
    (h : loop w T k op m = some m') : I m'.trans := by
  induction k generalizing op m with
  | zero => simp [loop] at h
  | succ k ih =>
    cases op with
    | restart =>
      simp only [loop] at h
      have g := begin_inv w I h2 h5 m hi
      split at h
      · simp only [Option.some.injEq] at h
        subst h
        exact g
      · exact ih _ _ g h
    | read =>
      simp only [loop] at h
      split at h
      · simp at h
      · rename_i p hp
        have g := readLoop_inv w I h5 ((T.reading m.trans).1.length - 1) p
          { m with trans := (T.reading m.trans).2 } (h4 _ hi)
        split at h
        · simp only [Option.some.injEq] at h
          subst h
          exact g
        · exact ih _ _ g h
    | write =>
      simp only [loop] at h
      split at h
      · exact ih _ { m with trans := (T.writing m.trans).2 } (h3 _ hi) h
      · rename_i p hp
        have g := writeLoop_inv w I h5 (T.writing m.trans).1.length p
          { m with trans := (T.writing m.trans).2 } (h3 _ hi)
        split at h
        · simp only [Option.some.injEq] at h
          subst h
          exact g
        · exact ih _ _ g h
    | stop =>
      simp only [loop, Option.some.injEq] at h
      subst h
      exact stopCondition_inv w I h5 _ (h5 _ _ hi)

theorem start_inv (h1 : ∀ t, I t → I (T.attaching t).2) (k : Nat) (t : τ) (m m' : Master σ τ) (hi : I t)
    (h : start w T k t m = some (true, m')) : I m'.trans := by
  simp only [start] at h
  split at h
  · simp at h
  · split at h
    · simp at h
    · obtain ⟨r, hr, h⟩ := Option.map_eq_some_iff.mp h
      simp only [Prod.mk.injEq, true_and] at h
      subst h
      exact loop_inv w I h2 h3 h4 h5 k .restart _ _ (h1 _ hi) hr

end

/-- **C110**: an `I2cWriteTransaction` started again without being configured anew does the same again,
also after an error. -/
theorem C110_again_write (A : App α) (k : Nat) (m : Master (Bus α) OneWay) (s : α) (t : OneWay)
    (address : Byte) (p n : Nat)
    (hfree : m.env.Free s) (hp : Patient m.env) (hm : m.attached = false)
    (ht : t.address = address <<< 1) (hb : t.state ≠ .busy) (ha : address <<< 1 ≠ 0#8) :
    ∃ m1 m2, start (wires A) onlyWrite (k + 5) (t.configureWrite (if n = 0 then none else some p) n).2 m
        = some (true, m1) ∧
      start (wires A) onlyWrite (k + 5) m1.trans m1 = some (true, m2) ∧
      Happened A (transfer address (bytesAt m.mem p n) 0)
        (exec A (transfer address (bytesAt m.mem p n) 0) s).2.2 0 OneWay.state m1 m2 := by
  obtain ⟨m1, e1, k1⟩ := C108_write A k m s t address p n hfree hp hm ht hb ha
  have hi := start_inv (wires A) (fun u : OneWay => u.address = address <<< 1 ∧
      u.buffer = (if n = 0 then none else some p) ∧ u.size = n) (T := onlyWrite)
    (fun _ h => h) (fun _ h => h) (fun _ h => h) (fun _ _ h => h) (fun _ h => h) _ _ _ _
    (by rw [OneWay.configureWrite, if_neg hb]
        exact ⟨ht, rfl, by by_cases hn : n = 0 <;> simp [hn, lengthOf]⟩) e1
  have hmem : m1.mem = m.mem := by
    rw [k1.mem]
    have : ∀ s, (exec A (transfer address (bytesAt m.mem p n) 0) s).2.1 = [] := by
      intro s
      simp only [transfer, or_true, if_true, ne_eq, not_true, if_false, List.append_nil, List.cons_append, exec]
      split
      · rw [exec_append]
        split
        · simp [exec, writes_nil]
        · exact writes_nil A _ _
      · rfl
    rw [this, stored_nil]
  obtain ⟨m2, e2, k2⟩ := write_object A k m1 _ m1.trans address p n k1.free k1.patient k1.attached hi.1
    (by rw [k1.state]; split <;> simp) ha hi.2.1 hi.2.2
  rw [hmem] at k2
  exact ⟨m1, m2, e1, e2, k2⟩

/-- **C110**: and so does an `I2cReadTransaction`. -/
theorem C110_again_read (A : App α) (k : Nat) (m : Master (Bus α) OneWay) (s : α) (t : OneWay)
    (address : Byte) (p n : Nat)
    (hfree : m.env.Free s) (hp : Patient m.env) (hm : m.attached = false)
    (ht : t.address = address <<< 1) (hb : t.state ≠ .busy) (ha : address <<< 1 ≠ 0#8) :
    ∃ m1 m2, start (wires A) onlyRead (k + 5) (t.configureRead (if n = 0 then none else some p) n).2 m
        = some (true, m1) ∧
      start (wires A) onlyRead (k + 5) m1.trans m1 = some (true, m2) ∧
      Happened A (transfer address [] n) (exec A (transfer address [] n) s).2.2 p OneWay.state m1 m2 := by
  obtain ⟨m1, e1, k1⟩ := C108_read A k m s t address p n hfree hp hm ht hb ha
  have hi := start_inv (wires A) (fun u : OneWay => u.address = address <<< 1 ∧
      u.buffer = (if n = 0 then none else some p) ∧ u.size = n) (T := onlyRead)
    (fun _ h => h) (fun _ h => h) (fun _ h => h) (fun _ _ h => h) (fun _ h => h) _ _ _ _
    (by rw [OneWay.configureRead, if_neg hb]; exact ⟨ht, rfl, rfl⟩) e1
  obtain ⟨m2, e2, k2⟩ := read_object A k m1 _ m1.trans address p n k1.free k1.patient k1.attached hi.1
    (by rw [k1.state]; split <;> simp) ha hi.2.1 hi.2.2
  exact ⟨m1, m2, e1, e2, k2⟩

example := C110_again_write recorder 0 (master0 (OneWay.new 0x1e#8)) [] (OneWay.new 0x1e#8) 0x1e#8 7 4
  bus0_free bus0_patient rfl rfl (by decide) (by decide)
example := C110_again_read recorder 0 (master0 (OneWay.new 0x1e#8)) [] (OneWay.new 0x1e#8) 0x1e#8 100 2
  bus0_free bus0_patient rfl rfl (by decide) (by decide)

/-- **C110** is false for an `I2cWriteReadTransaction`: when it is started a second time without being
configured anew, nothing is written, as `isReading` is still set. -/
theorem C110_again_counterexample :
    let r := start (wires recorder) writeRead 5
      ((WriteRead.new 0x1e#8).configure (some 7) 2 (some 100) 1).2 (master0 (WriteRead.new 0x1e#8))
    (outline WriteRead.state r).map (·.2.2.2.2)
      = some [6000, 5000, 4006, 2061, 1000, 3024, 3021, 2060, 1000] ∧
    (outline WriteRead.state (r.bind fun r => start (wires recorder) writeRead 5 r.2.trans r.2)).map (·.2.2.2.2)
      = some [6000, 5000, 4011, 2061, 1000, 6000, 5000, 4006, 2061, 1000, 3024, 3021, 2060, 1000] := by
  decide +kernel

/-- **C110** is false for a null buffer: `configureWrite` takes it as nothing to write, `configureRead`
takes it as it is, and the master dereferences it. -/
theorem C110_null_counterexample :
    (outline OneWay.state (start (wires recorder) onlyWrite 5 ((OneWay.new 0x1e#8).configureWrite none 4).2
      (master0 (OneWay.new 0x1e#8)))).map (·.2.1) = some .noError ∧
    (outline OneWay.state (start (wires recorder) onlyRead 5 ((OneWay.new 0x1e#8).configureRead none 4).2
      (master0 (OneWay.new 0x1e#8)))) = none := by decide +kernel

/-! ## C111: the clock -/

/-- **C111**: the quarter of a period is right, in nanoseconds, from 3815 Bd to 250 MBd. -/
theorem C111_i2c_partial (baudrate : Nat) (h1 : 3815 ≤ baudrate) (h2 : baudrate ≤ 250000000) :
    delayTime baudrate * baudrate ≤ 250000000 ∧ 250000000 < (delayTime baudrate + 1) * baudrate := by
  have h0 : 0 < baudrate := by omega
  have h3 : 250000000 / baudrate < 65536 := by
    rw [Nat.div_lt_iff_lt_mul h0]; omega
  have h4 : 1 ≤ 250000000 / baudrate := by rw [Nat.one_le_div_iff h0]; exact h2
  have h5 := Nat.div_add_mod 250000000 baudrate
  have h6 := Nat.mod_lt 250000000 h0
  have h7 : delayTime baudrate = 250000000 / baudrate := by
    simp only [delayTime, Nat.mod_eq_of_lt h3]
    rw [if_neg (by omega)]
  rw [h7]
  generalize 250000000 / baudrate = q at *
  generalize 250000000 % baudrate = r at *
  rw [Nat.mul_comm] at h5
  constructor
  · omega
  · rw [Nat.add_mul]; omega

example : delayTime 100000 = 2500 := by decide

/-- **C111** is false below: with 3800 Bd, the clock is 982 kHz. -/
theorem C111_i2c_counterexample :
    delayTime 3800 = 253 ∧ ¬ 250000000 < (delayTime 3800 + 1) * 3800 := by decide +kernel

/-! ## C113: freeing the bus -/

/-- One clock of `resetDevices` with SDA released. -/
theorem reset_clock (A : App α) (b : Bus α) (h1 : b.mscl = true) (h2 : b.hold = 0) (h3 : ∀ i, b.stretch i ≤ 2) :
    (wires A).delay 2 ((wires A).scl true ((wires A).delay 2 ((wires A).scl false b)))
      = (⟨(b.react A).app, (b.react A).phase, true, b.msda, (b.react A).ssda, 0,
          fun i => b.stretch (i + 1)⟩ : Bus α).rise := by
  rw [fall_high A b h1 h2]
  have hm : (({ b with mscl := false } : Bus α).fall A).mscl = false := by
    show (({ b with mscl := false } : Bus α).react A).mscl = false
    rw [react_mscl]
  have e1 : (wires A).delay 2 (({ b with mscl := false } : Bus α).fall A) = _ := wait_low _ 2 hm
  have hr : (({ b with mscl := false } : Bus α).react A)
      = ⟨(b.react A).app, (b.react A).phase, false, b.msda, (b.react A).ssda, b.hold, b.stretch⟩ := by
    obtain ⟨app, phase, mscl, msda, ssda, hold, stretch⟩ := b
    simp only [Bus.react, Bus.sendByte]
    (repeat' split) <;> rfl
  have e2 : ({ ({ b with mscl := false } : Bus α).fall A with
      hold := (({ b with mscl := false } : Bus α).fall A).hold - 2 } : Bus α)
      = ⟨(b.react A).app, (b.react A).phase, false, b.msda, (b.react A).ssda, 0,
          fun i => b.stretch (i + 1)⟩ := by
    simp only [Bus.fall, hr]
    have := h3 0
    rw [show b.stretch 0 - 2 = 0 by omega]
  rw [e1, e2]
  have e3 : (wires A).scl true (⟨(b.react A).app, (b.react A).phase, false, b.msda, (b.react A).ssda, 0,
          fun i => b.stretch (i + 1)⟩ : Bus α)
      = (⟨(b.react A).app, (b.react A).phase, true, b.msda, (b.react A).ssda, 0,
          fun i => b.stretch (i + 1)⟩ : Bus α).rise := by
    simp [wires, Bus.setScl, Bus.scl]
  rw [e3]
  exact wait_zero _ _ (by simp)

/-- SCL is high, SDA is released by the master. -/
structure High (b : Bus α) (ph : Phase) : Prop where
  mscl : b.mscl = true
  msda : b.msda = true
  hold : b.hold = 0
  quick : ∀ i, b.stretch i ≤ 2
  phase : b.phase = ph

theorem reset_idle (A : App α) (n : Nat) (b : Bus α) (h : High b .idle) (hs : b.ssda = true) :
    High (resetDevices (wires A) n b) .idle ∧ (resetDevices (wires A) n b).ssda = true := by
  induction n generalizing b with
  | zero => exact ⟨h, hs⟩
  | succ n ih =>
    rw [resetDevices, reset_clock A b h.mscl h.hold h.quick]
    have hr : b.react A = b := by simp [Bus.react, h.phase]
    rw [hr]
    refine ih _ ⟨?_, ?_, ?_, ?_, ?_⟩ ?_
    · simp
    · simpa using h.msda
    · simp
    · simpa using fun i => h.quick (i + 1)
    · simp [Bus.rise, h.phase]
    · simpa using hs

theorem reset_nacked (A : App α) (n : Nat) (b : Bus α) (h : High b (.ackIn (some true)))
    (hs : b.ssda = true) :
    (High (resetDevices (wires A) n b) .idle ∨ High (resetDevices (wires A) n b) (.ackIn (some true))) ∧
      (resetDevices (wires A) n b).ssda = true := by
  cases n with
  | zero => exact ⟨Or.inr h, hs⟩
  | succ n =>
    rw [resetDevices, reset_clock A b h.mscl h.hold h.quick]
    have hr : b.react A = { b with app := A.acked false b.app, phase := .idle, ssda := true } := by
      simp [Bus.react, h.phase]
    rw [hr]
    have := reset_idle A n (⟨A.acked false b.app, .idle, true, b.msda, true, 0, fun i => b.stretch (i + 1)⟩ : Bus α)
      ⟨rfl, h.msda, rfl, fun i => h.quick (i + 1), rfl⟩ rfl
    exact ⟨Or.inl this.1, this.2⟩

/-- A device that is sending runs out of bits. -/
theorem reset_sending (A : App α) (n : Nat) (bits : List Bool) (b : Bus α) (h : High b (.send bits))
    (hn : bits.length < n) :
    (High (resetDevices (wires A) n b) .idle ∨ High (resetDevices (wires A) n b) (.ackIn (some true))) ∧
      (resetDevices (wires A) n b).ssda = true := by
  induction bits generalizing b n with
  | nil =>
    obtain ⟨n, rfl⟩ : ∃ k, n = k + 1 := ⟨n - 1, by simp at hn; omega⟩
    rw [resetDevices, reset_clock A b h.mscl h.hold h.quick]
    have hr : b.react A = { b with phase := .ackIn none, ssda := true } := by simp [Bus.react, h.phase]
    rw [hr]
    refine reset_nacked A n _ ⟨?_, ?_, ?_, ?_, ?_⟩ ?_
    · simp
    · simpa using h.msda
    · simp
    · simpa using fun i => h.quick (i + 1)
    · simp [Bus.rise, Bus.sda, h.msda]
    · simp
  | cons x bits ih =>
    obtain ⟨n, rfl⟩ : ∃ k, n = k + 1 := ⟨n - 1, by simp at hn; omega⟩
    rw [resetDevices, reset_clock A b h.mscl h.hold h.quick]
    have hr : b.react A = { b with phase := .send bits, ssda := x } := by simp [Bus.react, h.phase]
    rw [hr]
    refine ih _ _ ⟨?_, ?_, ?_, ?_, ?_⟩ (by simp at hn; omega)
    · simp
    · simpa using h.msda
    · simp
    · simpa using fun i => h.quick (i + 1)
    · simp [Bus.rise]

/-- **C113** (part): when the master was reset while a device was sending, or while it waited for the
acknowledge, `resetDevices` with SDA released makes the device release SDA, so that a START
condition can be given. -/
theorem C113_sending_partial (A : App α) (b : Bus α) (hm : b.mscl = true) (hh : b.hold = 0) (hs : b.msda = true)
    (hq : ∀ i, b.stretch i ≤ 2)
    (hph : (∃ bits, b.phase = .send bits ∧ bits.length ≤ 7) ∨ (∃ x, b.phase = .ackIn (some x) ∧ b.ssda = true)) :
    (resetDevices (wires A) 9 b).scl = true ∧ (resetDevices (wires A) 9 b).sda = true := by
  have key : (High (resetDevices (wires A) 9 b) .idle ∨ High (resetDevices (wires A) 9 b) (.ackIn (some true))) ∧
      (resetDevices (wires A) 9 b).ssda = true := by
    rcases hph with ⟨bits, h1, h2⟩ | ⟨x, h1, h2⟩
    · exact reset_sending A 9 bits b ⟨hm, hs, hh, hq, h1⟩ (by omega)
    · cases x
      · rw [show (9 : Nat) = 8 + 1 from rfl, resetDevices, reset_clock A b hm hh hq]
        have hr : b.react A = { b with
            app := (A.read (A.acked true b.app)).2
            phase := .send ((bitsOf (A.read (A.acked true b.app)).1).drop 1)
            ssda := (bitsOf (A.read (A.acked true b.app)).1).headD true } := by
          simp [Bus.react, h1, Bus.sendByte]
        rw [hr]
        refine reset_sending A 8 ((bitsOf (A.read (A.acked true b.app)).1).drop 1) _ ⟨?_, ?_, ?_, ?_, ?_⟩ ?_
        · simp
        · simpa using hs
        · simp
        · simpa using fun i => hq (i + 1)
        · simp [Bus.rise]
        · simp [bitsOf]
      · exact reset_nacked A 9 b ⟨hm, hs, hh, hq, h1⟩ h2
  obtain ⟨h1, h2⟩ := key
  rcases h1 with h1 | h1 <;> simp [Bus.scl, Bus.sda, h1.mscl, h1.msda, h1.hold, h2]

/-- The device is at the third bit of a byte, which is 0. -/
def sending0 : Bus (List Nat) := ⟨[], .send [true, false, true, true, false], true, true, false, 0, fun _ => 1⟩

example : sending0.sda = false ∧ (resetDevices (wires recorder) 9 sending0).sda = true :=
  ⟨rfl, (C113_sending_partial recorder sending0 rfl rfl rfl (fun _ => by simp [sending0])
    (Or.inl ⟨_, rfl, by decide⟩)).2⟩

/-- **C113** is false for a device that was being written to: when the master was reset while the device
acknowledged a byte, the device takes the clocks as another byte, and after nine of them
acknowledges that one, pulling SDA. -/
theorem C113_written_counterexample :
    let b : Bus (List Nat) := ⟨[2060, 1000], .ackOut false, true, true, false, 0, fun _ => 0⟩
    b.sda = false ∧ (resetDevices (wires recorder) 9 b).sda = false ∧
    (start (wires recorder) onlyWrite 5 ((OneWay.new 0x1e#8).configureWrite (some 7) 1).2
      { master0 (OneWay.new 0x1e#8) with env := resetDevices (wires recorder) 9 b }).map (·.2.error)
      = some .busBusy := by decide +kernel

/-- **C113** is false when the SDA pin is not set before (`connect` makes it an output before
`initialize` sets it): the device takes the low level for an acknowledge, and goes on sending. -/
theorem C113_pulled_counterexample :
    let b : Bus (List Nat) := ⟨[], .send [false, true, true, false], true, false, false, 0, fun _ => 0⟩
    (resetDevices (wires recorder) 9 b).phase ≠ .idle ∧ (resetDevices (wires recorder) 9 b).ssda = false := by
  decide +kernel

/-! ## C114: the timing on the wires -/

section
variable {σ : Type} (w : Wires σ)

/-- Wires that are watched. -/
def watched : Wires (σ × Clock) where
  scl l s := (w.scl l s.1, (s.2.setScl l).observe (w.readScl (w.scl l s.1)))
  sda l s := (w.sda l s.1, (s.2.setSda l).observe (w.readScl (w.sda l s.1)))
  readScl s := w.readScl s.1
  readSda s := w.readSda s.1
  delay n s := (w.delay n s.1, (s.2.wait n).observe (w.readScl (w.delay n s.1)))

/-- The clock is pulled by the master, all was well so far. -/
structure LowOk (c : Clock) : Prop where
  mscl : c.mscl = false
  lowAt : c.lowAt ≤ c.now
  sdaAt : c.sdaAt ≤ c.now
  ok : c.ok = true

/-- The clock is released, and all was well so far. -/
structure HighOk (c : Clock) : Prop where
  mscl : c.mscl = true
  highAt : c.seen = true → c.highAt ≤ c.now
  lowAt : c.lowAt ≤ c.now
  sdaAt : c.sdaAt ≤ c.now
  ok : c.ok = true

theorem observe_low (l : Bool) (c : Clock) (h : c.mscl = false) : c.observe l = c := by
  simp [Clock.observe, h]

theorem observe_high (l : Bool) (c : Clock) (h : HighOk c) :
    HighOk (c.observe l) ∧ (l = true → (c.observe l).seen = true) := by
  simp only [Clock.observe]
  split
  · exact ⟨⟨h.mscl, fun _ => Nat.le_refl _, h.lowAt, h.sdaAt, h.ok⟩, fun _ => rfl⟩
  · rename_i h1
    refine ⟨h, fun hl => ?_⟩
    simp only [hl, h.mscl, Bool.true_and, Bool.not_eq_true', Bool.not_eq_false] at h1
    exact h1

theorem wait_high (n : Nat) (c : Clock) (h : HighOk c) : HighOk (c.wait n) :=
  ⟨h.mscl, fun hs => by have := h.highAt hs; simp only [Clock.wait]; omega,
    by have := h.lowAt; simp only [Clock.wait]; omega,
    by have := h.sdaAt; simp only [Clock.wait]; omega, h.ok⟩

theorem sclWait_ok (d : Nat) (s : σ × Clock) (h : HighOk s.2) (hs : w.readScl s.1 = true → s.2.seen = true) :
    (sclWait (watched w) d s).1 = true →
      HighOk (sclWait (watched w) d s).2.2 ∧ (sclWait (watched w) d s).2.2.seen = true := by
  induction d generalizing s with
  | zero => simp [sclWait]
  | succ d ih =>
    have h1 := observe_high (w.readScl (w.delay 1 s.1)) _ (wait_high 1 s.2 h)
    have h2 := observe_high (w.readScl (w.delay 1 (w.delay 1 s.1))) _ (wait_high 1 _ h1.1)
    simp only [sclWait]
    repeat' split
    · rename_i hr
      exact fun _ => ⟨h, hs hr⟩
    · rename_i hr
      exact fun _ => ⟨h1.1, h1.2 hr⟩
    · exact ih ((watched w).delay 1 ((watched w).delay 1 s)) h2.1 h2.2

/-- Releasing SCL when it has been low, and SDA stable, for half a period. -/
theorem release_ok (s : σ × Clock) (h : LowOk s.2) (h1 : s.2.lowAt + 2 ≤ s.2.now) (h2 : s.2.sdaAt + 2 ≤ s.2.now)
    (hr : (sclSetAndWait (watched w) s).1 = true) :
    HighOk (sclSetAndWait (watched w) s).2.2 ∧ (sclSetAndWait (watched w) s).2.2.seen = true := by
  have hh : HighOk (s.2.setScl true) := by
    simp only [Clock.setScl, h.mscl]
    refine ⟨rfl, by simp, h.lowAt, h.sdaAt, ?_⟩
    simp [h.ok, h1, h2]
  have := observe_high (w.readScl (w.scl true s.1)) _ hh
  exact sclWait_ok w 250 ((watched w).scl true s) this.1 this.2 hr

/-- Pulling SCL after half a period. -/
theorem pull_ok (s : σ × Clock) (h : HighOk s.2) (hs : s.2.seen = true) :
    LowOk ((watched w).scl false ((watched w).delay 2 s)).2 := by
  have e : (s.2.wait 2).observe (w.readScl (w.delay 2 s.1)) = s.2.wait 2 := by
    simp [Clock.observe, Clock.wait, hs]
  have h3 := h.highAt hs
  have h4 := h.sdaAt
  simp only [watched, e]
  rw [observe_low]
  · simp only [Clock.setScl, Clock.wait, h.mscl, Bool.false_eq_true, if_false]
    refine ⟨rfl, Nat.le_refl _, by simp only; omega, ?_⟩
    simp [h.ok, hs]
    omega
  · simp [Clock.setScl, Clock.wait, h.mscl]

/-- SDA is set and half a period passes. -/
theorem setSda_ok (l : Bool) (s : σ × Clock) (h : LowOk s.2) :
    LowOk ((watched w).delay 2 ((watched w).sda l s)).2 ∧
    ((watched w).delay 2 ((watched w).sda l s)).2.lowAt + 2 ≤ ((watched w).delay 2 ((watched w).sda l s)).2.now ∧
    ((watched w).delay 2 ((watched w).sda l s)).2.sdaAt + 2 ≤ ((watched w).delay 2 ((watched w).sda l s)).2.now := by
  have hl := h.lowAt
  have hs := h.sdaAt
  have e1 : (s.2.setSda l).mscl = false := by
    simp only [Clock.setSda]; split <;> exact h.mscl
  simp only [watched]
  rw [observe_low _ _ e1, observe_low _ _ (by simpa [Clock.wait] using e1)]
  simp only [Clock.setSda, Clock.wait]
  split
  · exact ⟨⟨h.mscl, by simp only; omega, by simp only; omega, h.ok⟩, by omega, by omega⟩
  · exact ⟨⟨h.mscl, by simp only; omega, by simp only; omega, by simp [h.ok, h.mscl]⟩, by simp only; omega,
      by simp only; omega⟩

theorem writeBit_ok (bit : Bool) (s : σ × Clock) (h : LowOk s.2) (hr : (writeBit (watched w) bit s).1 = true) :
    LowOk (writeBit (watched w) bit s).2.2 := by
  obtain ⟨h1, h2, h3⟩ := setSda_ok w bit s h
  revert hr
  simp only [writeBit]
  split
  · split
    · rename_i hr
      have := release_ok w _ h1 h2 h3 hr
      exact fun _ => pull_ok w _ this.1 this.2
    · simp
  · simp

theorem writeBits_ok (n : Nat) (data : Byte) (s : σ × Clock) (h : LowOk s.2)
    (hr : (writeBits (watched w) n data s).1 = true) : LowOk (writeBits (watched w) n data s).2.2 := by
  induction n generalizing data s with
  | zero => exact h
  | succ n ih =>
    revert hr
    simp only [writeBits]
    split
    · rename_i hb
      exact fun hr => ih _ _ (writeBit_ok w _ s h hb) hr
    · simp

/-- A read bit: SDA is not touched, but has been stable. -/
theorem readBit_ok (data : Byte) (s : σ × Clock) (h : LowOk s.2)
    (hr : (readBit (watched w) data s).1 = true) : LowOk (readBit (watched w) data s).2.2.2 := by
  have hl := h.lowAt
  have hs := h.sdaAt
  have e : ((watched w).delay 2 s).2 = s.2.wait 2 := by
    simp only [watched]
    exact observe_low _ _ h.mscl
  have h1 : LowOk ((watched w).delay 2 s).2 := by
    rw [e]
    exact ⟨h.mscl, by simp only [Clock.wait]; omega, by simp only [Clock.wait]; omega, h.ok⟩
  revert hr
  simp only [readBit]
  split
  · rename_i hr
    have := release_ok w _ h1 (by rw [e]; simp only [Clock.wait]; omega) (by rw [e]; simp only [Clock.wait]; omega) hr
    exact fun _ => pull_ok w _ this.1 this.2
  · simp

theorem readBits_ok (n : Nat) (data : Byte) (s : σ × Clock) (h : LowOk s.2)
    (hr : (readBits (watched w) n data s).1 = true) : LowOk (readBits (watched w) n data s).2.2.2 := by
  induction n generalizing data s with
  | zero => exact h
  | succ n ih =>
    revert hr
    simp only [readBits]
    split
    · rename_i hb
      exact fun hr => ih _ _ (readBit_ok w _ s h hb) hr
    · rename_i hb
      exact fun hr => absurd hr hb

/-- **C114** (part): while bytes are written and read, SCL is low and high for half a period at least, as
far as the master can see, SDA has been stable for half a period when SCL is released, and is not
changed while it is high. -/
theorem C114_bytes_partial (T : Transaction τ) (data : Byte) (p : Nat) (ack : Bool)
    (m : Master (σ × Clock) τ) (h : LowOk m.env.2) :
    ((write (watched w) T data m).1 = true → LowOk (write (watched w) T data m).2.env.2) ∧
    ((Modm.I2c.read (watched w) T p ack m).1 = true → LowOk (Modm.I2c.read (watched w) T p ack m).2.env.2) := by
  constructor
  · simp only [write]
    split
    · simp
    · rename_i hb
      have h1 := writeBits_ok w 8 data m.env h (by simpa using hb)
      obtain ⟨h2, h3, h4⟩ := setSda_ok w true _ h1
      split
      · simp
      · rename_i hr
        have := release_ok w _ h2 h3 h4 (by simpa using hr)
        split
        · simp
        · exact fun _ => pull_ok w _ this.1 this.2
  · have set : ∀ s : σ × Clock, LowOk s.2 → LowOk ((watched w).sda true s).2 := by
      intro s hs
      have e1 : (s.2.setSda true).mscl = false := by
        simp only [Clock.setSda]; split <;> exact hs.mscl
      simp only [watched]
      rw [observe_low _ _ e1]
      simp only [Clock.setSda]
      split
      · exact hs
      · exact ⟨hs.mscl, hs.lowAt, Nat.le_refl _, by simp [hs.ok, hs.mscl]⟩
    simp only [Modm.I2c.read]
    split
    · simp
    · rename_i hb
      have h1 := readBits_ok w 8 0#8 _ (set _ h) (by simpa using hb)
      split
      · simp
      · rename_i hr
        exact fun _ => set _ (writeBit_ok w _ _ h1 (by simpa using hr))

end

/-- Watched from the beginning of a byte. -/
def clock0 : Clock := ⟨10, 10, false, 7, 10, false, true, true⟩

/-- After the START condition. -/
def ready0 : Master (Bus (List Nat) × Clock) OneWay :=
  ⟨({ bus0 with mscl := false, phase := .recv true [], hold := 20 }, clock0), true, OneWay.new 0x1e#8, .noError,
    0x3c#8, fun _ => 0#8⟩

example : LowOk ready0.env.2 := ⟨rfl, by decide, by decide, rfl⟩
example : (write (watched (wires recorder)) onlyWrite 0x3c#8 ready0).1 = true ∧
    (write (watched (wires recorder)) onlyWrite 0x3c#8 ready0).2.env.2.ok = true := by decide +kernel

/-- **C114** is false for the STOP condition after a byte, and for a repeated START: SCL is released at once,
or after a quarter of a period. -/
theorem C114_conditions_counterexample :
    let m := (write (watched (wires recorder)) onlyWrite 0x3c#8 ready0).2
    m.env.2.ok = true ∧
    (stopCondition (watched (wires recorder)) onlyWrite m).1 = true ∧
    (stopCondition (watched (wires recorder)) onlyWrite m).2.env.2.ok = false ∧
    (sclSetAndWait (watched (wires recorder)) ((watched (wires recorder)).delay 1
      ((watched (wires recorder)).sda true m.env))).2.2.ok = false := by decide +kernel

end Props.I2c
