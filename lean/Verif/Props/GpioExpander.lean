import Verif.Lemmas.GpioExpander
import Verif.Props.BitOps
import Mathlib.Data.List.Induction
import Mathlib.Tactic.IntervalCases

set_option autoImplicit false

/-! Theorems about the drivers of GPIO expanders, C193–C198. -/

namespace Props.GpioExpander

open Modm.GpioExpander Spec.GpioExpander Lemmas.GpioExpander

/-! ### MCP23x17 -/

/-- What a call says about pin `i`. -/
def mcpSay (i : Nat) : Mcp.Call → Say
  | .setOutput p => .beOutput (p.getLsbD i)
  | .setInput p => .beInput (p.getLsbD i)
  | .set p => .high (p.getLsbD i)
  | .reset p => .low (p.getLsbD i)
  | .toggle p => .flip (p.getLsbD i)
  | .update p v => if v then .high (p.getLsbD i) else .low (p.getLsbD i)
  | .setPullUp p => .pull (p.getLsbD i) true
  | .resetPullUp p => .pull (p.getLsbD i) false
  | .setInvertInput p => .invert (p.getLsbD i) true
  | .resetInvertInput p => .invert (p.getLsbD i) false
  | .readInput => .nothing

/-- The pin as told by all calls of a row. -/
def mcpPin (i : Nat) (l : List (Mcp.Call × Bool × BitVec 16)) : Pin := Pin.after (l.map fun c => mcpSay i c.1)

/-- The driver's memory knows the pin. -/
private structure Cached (i : Nat) (s : Mcp) (p : Pin) : Prop where
  dir : (word s.buffer 0x00).getLsbD i = !p.out
  lat : (word s.buffer 0x14).getLsbD i = p.level
  pul : (word s.buffer 0x0C).getLsbD i = p.pull
  pol : (word s.buffer 0x02).getLsbD i = p.inverted

/-- The chip has the pin's direction, pull-up and polarity. -/
private structure Chipped (i : Nat) (s : Mcp) (p : Pin) : Prop where
  dir : (word s.chip 0x00).getLsbD i = !p.out
  pul : (word s.chip 0x0C).getLsbD i = p.pull
  pol : (word s.chip 0x02).getLsbD i = p.inverted

private theorem cached_step (i : Nat) (hi : i < 16) (c : Mcp.Call) (ok : Bool) (ext : BitVec 16) (s : Mcp) (p : Pin)
    (h : Cached i s p) : Cached i (Mcp.step c ok ext s) (p.hear (mcpSay i c)) := by
  obtain ⟨h1, h2, h3, h4⟩ := h
  cases c with
  | readInput =>
      constructor <;> simp only [Mcp.step, mcpSay, Pin.hear]
      · rw [read_word_ne _ _ _ _ _ _ _ (by decide)]; exact h1
      · rw [read_word_ne _ _ _ _ _ _ _ (by decide)]; exact h2
      · rw [read_word_ne _ _ _ _ _ _ _ (by decide)]; exact h3
      · rw [read_word_ne _ _ _ _ _ _ _ (by decide)]; exact h4
  | update q v =>
      cases hn : q.getLsbD i <;> cases ho : p.out <;> cases v <;> constructor <;>
        simp [Mcp.step, mcpSay, Pin.hear, Mcp.modify, Mcp.OLAT, Mcp.IODIR, wr_buffer, word_put, word_put_ne, Flags.update,
          BitVec.getLsbD_and, BitVec.getLsbD_or, BitVec.getLsbD_not, hi, hn, ho, h1, h2, h3, h4,
          -BitVec.getLsbD_eq_getElem]
  | _ q =>
      cases hn : q.getLsbD i <;> cases ho : p.out <;> constructor <;>
        simp [Mcp.step, mcpSay, Pin.hear, Mcp.modify, Mcp.OLAT, Mcp.IODIR, Mcp.GPPU, Mcp.IPOL, wr_buffer, word_put, word_put_ne, Flags.set, Flags.reset,
          Flags.toggle, BitVec.getLsbD_and, BitVec.getLsbD_or, BitVec.getLsbD_not, BitVec.getLsbD_xor,
          hi, hn, ho, h1, h2, h3, h4, -BitVec.getLsbD_eq_getElem]

/-- Calls about directions, pull-ups, polarities, levels. -/
def isDir : Mcp.Call → Bool
  | .setOutput _ | .setInput _ => true
  | _ => false

def isPull : Mcp.Call → Bool
  | .setPullUp _ | .resetPullUp _ => true
  | _ => false

def isInvert : Mcp.Call → Bool
  | .setInvertInput _ | .resetInvertInput _ => true
  | _ => false

def isLevel : Mcp.Call → Bool
  | .set _ | .reset _ | .toggle _ | .update _ _ => true
  | _ => false

/-- What a call leaves in the registers of the chip. -/
private theorem chip_step (c : Mcp.Call) (ok : Bool) (ext : BitVec 16) (s : Mcp) :
    word (Mcp.step c ok ext s).chip 0x00 =
      (if isDir c && ok then word (Mcp.step c ok ext s).buffer 0x00 else word s.chip 0x00) ∧
    word (Mcp.step c ok ext s).chip 0x0C =
      (if isPull c && ok then word (Mcp.step c ok ext s).buffer 0x0C else word s.chip 0x0C) ∧
    word (Mcp.step c ok ext s).chip 0x02 =
      (if isInvert c && ok then word (Mcp.step c ok ext s).buffer 0x02 else word s.chip 0x02) ∧
    word (Mcp.step c ok ext s).chip 0x14 =
      (if isLevel c && ok then word (Mcp.step c ok ext s).buffer 0x14 else word s.chip 0x14) := by
  cases c <;> cases ok <;>
    simp [Mcp.step, isDir, isPull, isInvert, isLevel, Mcp.modify, Mcp.OLAT, Mcp.IODIR, Mcp.GPPU, Mcp.IPOL, Mcp.GPIO,
      wr, wr_gpio, word_put, word_put_ne, read_chip]

private theorem hear_out (i : Nat) (c : Mcp.Call) (p : Pin) (h : isDir c = false) :
    (p.hear (mcpSay i c)).out = p.out := by
  cases c <;> simp [isDir] at h <;> simp only [mcpSay, Pin.hear]
  case update q v => cases v <;> simp only [Bool.false_eq_true, if_false, if_true] <;> split <;> rfl
  all_goals (split <;> rfl)

private theorem hear_pull (i : Nat) (c : Mcp.Call) (p : Pin) (h : isPull c = false) :
    (p.hear (mcpSay i c)).pull = p.pull := by
  cases c <;> simp [isPull] at h <;> simp only [mcpSay, Pin.hear]
  case update q v => cases v <;> simp only [Bool.false_eq_true, if_false, if_true] <;> split <;> rfl
  all_goals (split <;> rfl)

private theorem hear_inverted (i : Nat) (c : Mcp.Call) (p : Pin) (h : isInvert c = false) :
    (p.hear (mcpSay i c)).inverted = p.inverted := by
  cases c <;> simp [isInvert] at h <;> simp only [mcpSay, Pin.hear]
  case update q v => cases v <;> simp only [Bool.false_eq_true, if_false, if_true] <;> split <;> rfl
  all_goals (split <;> rfl)

private theorem hear_level (i : Nat) (c : Mcp.Call) (p : Pin) (h : isLevel c = false)
    (hi : ∀ q, c ≠ .setInput q) : (p.hear (mcpSay i c)).level = p.level := by
  cases c <;> simp [isLevel] at h <;> simp only [mcpSay, Pin.hear]
  case setInput q => exact absurd rfl (hi q)
  all_goals (split <;> rfl)

/-- The state after a successful `initialize()`. -/
def ready (chip : Nat → BitVec 8) (ext : BitVec 16) : Mcp := (Mcp.init (fun _ => true) ext (Mcp.construct chip)).1

private theorem fresh0 : word Mcp.fresh 0x00 = 0xffff#16 := by decide
private theorem fresh2 : word Mcp.fresh 0x02 = 0#16 := by decide
private theorem freshC : word Mcp.fresh 0x0C = 0#16 := by decide
private theorem fresh14 : word Mcp.fresh 0x14 = 0#16 := by decide

private theorem ready_chip (chip : Nat → BitVec 8) (ext : BitVec 16) :
    word (ready chip ext).chip 0x00 = 0xffff#16 ∧ word (ready chip ext).chip 0x02 = 0#16 ∧
      word (ready chip ext).chip 0x0C = 0#16 ∧ word (ready chip ext).chip 0x14 = 0#16 := by
  simp [ready, Mcp.init, Mcp.construct, Mcp.OLAT, Mcp.IODIR, Mcp.GPPU, Mcp.IPOL, Mcp.GPIO, Mcp.GPINTEN, Mcp.DEFVAL,
    Mcp.INTCON, wr, wr_gpio, wr_olat, Mcp.write, read_chip, word_put, word_put_ne, fresh0, fresh2, freshC, fresh14]

private theorem init_buffer (ack : Nat → Bool) (ext : BitVec 16) (s : Mcp) (h : ack 10 = true) (r : Nat)
    (hr : r + 1 < 0x12 ∨ r = 0x14) :
    word (Mcp.init ack ext s).1.buffer r = word (Mcp.init ack ext s).1.chip r := by
  unfold Mcp.init
  simp only [h, read_chip]
  rw [read_word _ _ _ _ _ _ (by omega) (by simp only [Mcp.IODIR]; omega)]
  simp [read_chip]

private theorem ready_cached (chip : Nat → BitVec 8) (ext : BitVec 16) (i : Nat) (hi : i < 16) :
    Cached i (ready chip ext) ⟨false, false, false, false⟩ ∧ Chipped i (ready chip ext) ⟨false, false, false, false⟩ := by
  obtain ⟨h0, h2, hC, h14⟩ := ready_chip chip ext
  have hb := init_buffer (fun _ => true) ext (Mcp.construct chip) rfl
  have ones : (0xffff#16).getLsbD i = true := by interval_cases i <;> rfl
  unfold ready at *
  refine ⟨⟨?_, ?_, ?_, ?_⟩, ⟨?_, ?_, ?_⟩⟩
  · rw [hb _ (by omega), h0]; exact ones
  · rw [hb _ (by omega), h14]; simp
  · rw [hb _ (by omega), hC]; simp
  · rw [hb _ (by omega), h2]; simp
  · rw [h0]; exact ones
  · rw [hC]; simp
  · rw [h2]; simp

private theorem mcpPin_snoc (i : Nat) (l : List (Mcp.Call × Bool × BitVec 16)) (c : Mcp.Call × Bool × BitVec 16) :
    mcpPin i (l ++ [c]) = (mcpPin i l).hear (mcpSay i c.1) := by
  simp [mcpPin, Pin.after]

private theorem run_snoc (l : List (Mcp.Call × Bool × BitVec 16)) (c : Mcp.Call × Bool × BitVec 16) (s : Mcp) :
    Mcp.run (l ++ [c]) s = Mcp.step c.1 c.2.1 c.2.2 (Mcp.run l s) := by
  simp [Mcp.run]

private theorem run_cached (chip : Nat → BitVec 8) (ext : BitVec 16) (i : Nat) (hi : i < 16)
    (l : List (Mcp.Call × Bool × BitVec 16)) : Cached i (Mcp.run l (ready chip ext)) (mcpPin i l) := by
  induction l using List.reverseRecOn with
  | nil => exact (ready_cached chip ext i hi).1
  | append_singleton l c ih => rw [run_snoc, mcpPin_snoc]; exact cached_step i hi _ _ _ _ _ ih

private theorem run_chipped (chip : Nat → BitVec 8) (ext : BitVec 16) (i : Nat) (hi : i < 16)
    (l : List (Mcp.Call × Bool × BitVec 16)) (hok : ∀ c ∈ l, c.2.1 = true) :
    Chipped i (Mcp.run l (ready chip ext)) (mcpPin i l) := by
  induction l using List.reverseRecOn with
  | nil => exact (ready_cached chip ext i hi).2
  | append_singleton l c ih =>
      have ih := ih fun d hd => hok d (by simp [hd])
      have hc := hok c (by simp)
      have hca := run_cached chip ext i hi (l ++ [c])
      have hs := chip_step c.1 c.2.1 c.2.2 (Mcp.run l (ready chip ext))
      rw [run_snoc, mcpPin_snoc] at *
      obtain ⟨s1, s2, s3, -⟩ := hs
      constructor
      · rw [s1]
        cases hd : isDir c.1
        · simp only [Bool.false_and, Bool.false_eq_true, if_false]
          rw [ih.dir, hear_out _ _ _ hd]
        · simp only [hc, Bool.true_and, if_true]
          rw [← hc]; exact hca.dir
      · rw [s2]
        cases hd : isPull c.1
        · simp only [Bool.false_and, Bool.false_eq_true, if_false]
          rw [ih.pul, hear_pull _ _ _ hd]
        · simp only [hc, Bool.true_and, if_true]
          rw [← hc]; exact hca.pul
      · rw [s3]
        cases hd : isInvert c.1
        · simp only [Bool.false_and, Bool.false_eq_true, if_false]
          rw [ih.pol, hear_inverted _ _ _ hd]
        · simp only [hc, Bool.true_and, if_true]
          rw [← hc]; exact hca.pol

/-- C193: after `initialize()`, whatever the chip held before, and any row of calls whose transfers were acknowledged,
every pin has the direction, the pull-up and the polarity it was given last (the chip drives it or not, and
`getDirection` says the same), and the next `readInput()` makes `read(pin)` tell the level of the wire — inverted if
that was asked for. -/
theorem C193_mcp23x17_pins (chip : Nat → BitVec 8) (ext : BitVec 16) (l : List (Mcp.Call × Bool × BitVec 16))
    (hok : ∀ c ∈ l, c.2.1 = true) (i : Nat) (hi : i < 16) :
    let s := Mcp.run l (ready chip ext)
    let p := mcpPin i l
    (s.drives i).isSome = p.out ∧ s.isOutput i = p.out ∧
      (word s.chip Mcp.GPPU).getLsbD i = p.pull ∧
      ∀ e, (Mcp.step .readInput true e s).readPin i = (((s.drives i).getD (e.getLsbD i)) ^^ p.inverted) := by
  intro s p
  have hca : Cached i s p := run_cached chip ext i hi l
  have hch : Chipped i s p := run_chipped chip ext i hi l hok
  refine ⟨?_, ?_, hch.pul, fun e => ?_⟩
  · unfold Mcp.drives; rw [hch.dir]; cases p.out <;> rfl
  · unfold Mcp.isOutput; rw [any_twoPow _ _ hi, hca.dir]; cases p.out <;> rfl
  · unfold Mcp.readPin
    rw [any_twoPow _ _ hi]
    simp only [Mcp.step]
    rw [read_gpio _ _ _ _ _ _ (by decide) (by decide)]
    have hd := hch.dir
    have hp := hch.pol
    simp only [Mcp.wires, Mcp.drives, Mcp.IPOL, Mcp.IODIR, Mcp.OLAT, BitVec.getLsbD_xor, BitVec.getLsbD_or,
      BitVec.getLsbD_and, BitVec.getLsbD_not, hi, hp, hd, decide_true]
    cases p.out <;> simp

/-- Failed transfers are made good: after calls any of whose transfers may have failed, one acknowledged call about
directions gives *every* pin the direction it was told last. -/
theorem C193_mcp23x17_heals (chip : Nat → BitVec 8) (ext : BitVec 16) (l : List (Mcp.Call × Bool × BitVec 16))
    (c : Mcp.Call) (hc : isDir c = true) (e : BitVec 16) (i : Nat) (hi : i < 16) :
    ((Mcp.run (l ++ [(c, true, e)]) (ready chip ext)).drives i).isSome = (mcpPin i (l ++ [(c, true, e)])).out := by
  have hca := run_cached chip ext i hi (l ++ [(c, true, e)])
  have hs := (chip_step c true e (Mcp.run l (ready chip ext))).1
  rw [run_snoc] at hca ⊢
  simp only [hc, Bool.true_and, if_true] at hs
  unfold Mcp.drives
  rw [hs]
  have := hca.dir
  simp only at this
  rw [this]
  cases (mcpPin i (l ++ [(c, true, e)])).out <;> rfl

/-- If `initialize()` returns `true` the driver knows the state of the chip, even if some of its writes failed. -/
theorem C193_mcp23x17_init (ack : Nat → Bool) (ext : BitVec 16) (s : Mcp)
    (h : (Mcp.init ack ext s).2 = true) (i : Nat) (hi : i < 16) :
    let t := (Mcp.init ack ext s).1
    t.isOutput i = (t.drives i).isSome ∧ ∀ v, t.drives i = some v → t.isSet i = v := by
  have h10 : ack 10 = true := h
  intro t
  have h0 : word t.buffer 0 = word t.chip 0 := init_buffer ack ext s h10 0 (by omega)
  have h14 : word t.buffer 0x14 = word t.chip 0x14 := init_buffer ack ext s h10 0x14 (by omega)
  unfold Mcp.isOutput Mcp.isSet Mcp.drives
  rw [any_twoPow _ _ hi, any_twoPow _ _ hi, h0, h14]
  refine ⟨?_, fun v hv => ?_⟩
  · cases (word t.chip 0).getLsbD i <;> rfl
  · split at hv
    · cases hv
    · exact Option.some.inj hv

example : (Mcp.run [(.setOutput 0x00f0, true, 0), (.setInput 0x0010, true, 0), (.setPullUp 0x0001, true, 0),
      (.setInvertInput 0x8000, true, 0), (.set 0x0020, true, 0), (.readInput, true, 0x0001)]
      (ready (fun _ => 0xa5) 0)).readPin 0 = true ∧
    (mcpPin 5 [(.setOutput 0x00f0, true, 0), (.set 0x0020, true, 0)]).level = true := by decide +kernel

/-- C194, the full claim: an output is driven at the level `isSet` tells. -/
def C194_full : Prop :=
  ∀ (chip : Nat → BitVec 8) (ext : BitVec 16) (l : List (Mcp.Call × Bool × BitVec 16)),
    (∀ c ∈ l, c.2.1 = true) → ∀ i, i < 16 →
      ∀ v, (Mcp.run l (ready chip ext)).drives i = some v → (Mcp.run l (ready chip ext)).isSet i = v

/-- Pin A0 is made an output, set, made an input and an output again: `isSet` says low, the chip drives it high. -/
theorem C194_latch_counterexample : ¬ C194_full := by
  intro h
  have := h (fun _ => 0) 0 [(.setOutput 1, true, 0), (.set 1, true, 0), (.setInput 1, true, 0), (.setOutput 1, true, 0)]
    (by decide) 0 (by omega) true (by decide +kernel)
  revert this
  decide +kernel

/-- And `toggle` then does nothing to the wire: it was high, it stays high. -/
theorem C194_toggle_counterexample :
    let s := Mcp.run [(.setOutput 1, true, 0), (.set 1, true, 0), (.setInput 1, true, 0), (.setOutput 1, true, 0)]
      (ready (fun _ => 0) 0)
    s.drives 0 = some true ∧ (Mcp.step (.toggle 1) true 0 s).drives 0 = some true := by
  decide +kernel

/-- `isSet` tells the level the pin was given last, whatever becomes of the transfers. -/
theorem C194_mcp23x17_isSet_partial (chip : Nat → BitVec 8) (ext : BitVec 16)
    (l : List (Mcp.Call × Bool × BitVec 16)) (i : Nat) (hi : i < 16) :
    (Mcp.run l (ready chip ext)).isSet i = (mcpPin i l).level := by
  unfold Mcp.isSet
  rw [any_twoPow _ _ hi]
  exact (run_cached chip ext i hi l).lat

/-- After an acknowledged `set`, `reset` or `toggle` — of any pins, whatever failed before — all outputs the chip drives
have the levels they were given last. -/
theorem C194_mcp23x17_levels_partial (chip : Nat → BitVec 8) (ext : BitVec 16)
    (l : List (Mcp.Call × Bool × BitVec 16)) (c : Mcp.Call) (hc : isLevel c = true) (e : BitVec 16) (i : Nat)
    (hi : i < 16) (v : Bool) (hv : (Mcp.run (l ++ [(c, true, e)]) (ready chip ext)).drives i = some v) :
    v = (mcpPin i (l ++ [(c, true, e)])).level := by
  have hca := run_cached chip ext i hi (l ++ [(c, true, e)])
  have hs := (chip_step c true e (Mcp.run l (ready chip ext))).2.2.2
  rw [run_snoc] at hca hv
  simp only [hc, Bool.true_and, if_true] at hs
  unfold Mcp.drives at hv
  split at hv
  · cases hv
  · have h1 := Option.some.inj hv
    have h2 := hca.lat
    simp only at h1 h2
    rw [← h1, ← h2]
    rw [← hs]

/-- As long as no pin is made an input every output is driven at its level at all times. -/
theorem C194_mcp23x17_no_inputs_partial (chip : Nat → BitVec 8) (ext : BitVec 16)
    (l : List (Mcp.Call × Bool × BitVec 16)) (hok : ∀ c ∈ l, c.2.1 = true)
    (hin : ∀ c ∈ l, ∀ q, c.1 ≠ .setInput q) (i : Nat) (hi : i < 16) :
    (Mcp.run l (ready chip ext)).drives i =
      if (mcpPin i l).out then some (mcpPin i l).level else none := by
  have hlat : (word (Mcp.run l (ready chip ext)).chip 0x14).getLsbD i = (mcpPin i l).level := by
    induction l using List.reverseRecOn with
    | nil => rw [show Mcp.run [] (ready chip ext) = ready chip ext from rfl, (ready_chip chip ext).2.2.2]; simp [mcpPin, Pin.after]
    | append_singleton l c ih =>
        have ih := ih (fun d hd => hok d (by simp [hd])) (fun d hd => hin d (by simp [hd]))
        have hc := hok c (by simp)
        have hca := run_cached chip ext i hi (l ++ [c])
        have hs := (chip_step c.1 c.2.1 c.2.2 (Mcp.run l (ready chip ext))).2.2.2
        rw [run_snoc, mcpPin_snoc] at *
        rw [hs]
        cases hd : isLevel c.1
        · simp only [Bool.false_and, Bool.false_eq_true, if_false]
          rw [ih, hear_level _ _ _ hd (hin c (by simp))]
        · simp only [hc, Bool.true_and, if_true]
          rw [← hc]; exact hca.lat
  have hch := (run_chipped chip ext i hi l hok).dir
  unfold Mcp.drives
  rw [hch, hlat]
  cases (mcpPin i l).out <;> rfl

example : (Mcp.run [(.setOutput 3, true, 0), (.set 1, false, 0), (.toggle 2, true, 0)] (ready (fun _ => 7) 0)).drives 0 =
    some true := by decide +kernel

/-! ### PCA9535 -/

/-- What a call says about pin `i`. -/
def pca9535Say (i : Nat) : Pca9535.Call → Say
  | .setOutput p => .beOutput (p.getLsbD i)
  | .setInput p => .beInput (p.getLsbD i)
  | .set p => .high (p.getLsbD i)
  | .reset p => .low (p.getLsbD i)
  | .toggle p => .flip (p.getLsbD i)
  | .update p v => if v then .high (p.getLsbD i) else .low (p.getLsbD i)
  | .writePort d => if d.getLsbD i then .high true else .low true
  | _ => .nothing

def pca9535Pin (i : Nat) (l : List (Pca9535.Call × Bool × BitVec 16)) : Known :=
  Known.after (l.map fun c => pca9535Say i c.1)

/-- Calls about directions and calls about levels. -/
def isDir9535 : Pca9535.Call → Bool
  | .setOutput _ | .setInput _ => true
  | _ => false

def isLevel9535 : Pca9535.Call → Bool
  | .set _ | .reset _ | .toggle _ | .update _ _ | .writePort _ => true
  | _ => false

/-- C195, the full claim: a pin of a chip that was just powered is driven only if some call made it an output. -/
def C195_full : Prop :=
  ∀ (l : List (Pca9535.Call × Bool × BitVec 16)), (∀ c ∈ l, c.2.1 = true) → ∀ i, i < 16 →
    ((Pca9535.run l Pca9535.powerOn).drives i).isSome = true → (pca9535Pin i l).out = some true

/-- `setInput(P0_0)` as the first call makes the fifteen other pins outputs, driven high. -/
theorem C195_setInput_counterexample : ¬ C195_full := by
  intro h
  have := h [(.setInput 1, true, 0)] (by decide) 1 (by omega) (by decide)
  revert this
  decide

/-- `setOutput(P0_0)` as the first call makes all sixteen pins outputs, driven high, while `isSet` says low. -/
theorem C195_setOutput_counterexample (i : Nat) (hi : i < 16) :
    let s := Pca9535.run [(.setOutput 1, true, 0)] Pca9535.powerOn
    s.drives i = some true ∧ s.isSet i = false := by
  interval_cases i <;> decide

/-- `getDirection` says output of all pins of a chip that was just powered, which has inputs only. -/
theorem C195_getDirection_counterexample (i : Nat) (hi : i < 16) :
    Pca9535.powerOn.isOutput i = true ∧ Pca9535.powerOn.drives i = none := by
  interval_cases i <;> decide

private structure Known9535 (i : Nat) (s : Pca9535) (p : Known) : Prop where
  out' : p.out = none ∨ p.out = some (!s.configuration.getLsbD i)
  level' : p.level = none ∨ p.level = some (s.output.getLsbD i)

private theorem Known9535.out {i : Nat} {s : Pca9535} {p : Known} (h : Known9535 i s p) (v : Bool)
    (hv : p.out = some v) : s.configuration.getLsbD i = !v := by
  rcases h.out' with h | h <;> rw [h] at hv
  · cases hv
  · rw [← Option.some.inj hv, Bool.not_not]

private theorem Known9535.level {i : Nat} {s : Pca9535} {p : Known} (h : Known9535 i s p) (v : Bool)
    (hv : p.level = some v) : s.output.getLsbD i = v := by
  rcases h.level' with h | h <;> rw [h] at hv
  · cases hv
  · exact Option.some.inj hv

private theorem known_step (i : Nat) (hi : i < 16) (c : Pca9535.Call) (ok : Bool) (ext : BitVec 16) (s : Pca9535)
    (p : Known) (h : Known9535 i s p) : Known9535 i (Pca9535.step c ok ext s) (p.hear (pca9535Say i c)) := by
  obtain ⟨h1, h2⟩ := h
  obtain ⟨o, lv⟩ := p
  simp only at h1 h2
  cases c with
  | update q v =>
      cases hn : q.getLsbD i <;> cases v <;> cases ok <;> rcases h1 with rfl | rfl <;> rcases h2 with rfl | rfl <;>
        constructor <;>
        simp [Pca9535.step, Pca9535.writeMemory, pca9535Say, Known.hear, Flags.update, BitVec.getLsbD_and,
          BitVec.getLsbD_or, BitVec.getLsbD_not, hn, hi, -BitVec.getLsbD_eq_getElem]
  | writePort q =>
      cases hn : q.getLsbD i <;> cases ok <;> rcases h1 with rfl | rfl <;> rcases h2 with rfl | rfl <;> constructor <;>
        simp [Pca9535.step, Pca9535.writeMemory, pca9535Say, Known.hear, hn, -BitVec.getLsbD_eq_getElem]
  | readInput =>
      cases ok <;> rcases h1 with rfl | rfl <;> rcases h2 with rfl | rfl <;> constructor <;>
        simp [Pca9535.step, pca9535Say, Known.hear, -BitVec.getLsbD_eq_getElem]
  | _ q =>
      cases hn : q.getLsbD i <;> cases ok <;> rcases h1 with rfl | rfl <;> rcases h2 with rfl | rfl <;> constructor <;>
        simp [Pca9535.step, Pca9535.writeMemory, pca9535Say, Known.hear, Flags.set, Flags.reset, Flags.toggle,
          BitVec.getLsbD_and, BitVec.getLsbD_or, BitVec.getLsbD_not, BitVec.getLsbD_xor, hn, hi,
          -BitVec.getLsbD_eq_getElem]

private theorem run9535_snoc (l : List (Pca9535.Call × Bool × BitVec 16)) (c : Pca9535.Call × Bool × BitVec 16)
    (s : Pca9535) : Pca9535.run (l ++ [c]) s = Pca9535.step c.1 c.2.1 c.2.2 (Pca9535.run l s) := by
  simp [Pca9535.run]

private theorem pin9535_snoc (i : Nat) (l : List (Pca9535.Call × Bool × BitVec 16))
    (c : Pca9535.Call × Bool × BitVec 16) : pca9535Pin i (l ++ [c]) = (pca9535Pin i l).hear (pca9535Say i c.1) := by
  simp [pca9535Pin, Known.after]

private theorem run_known (i : Nat) (hi : i < 16) (l : List (Pca9535.Call × Bool × BitVec 16)) (s : Pca9535) :
    Known9535 i (Pca9535.run l s) (pca9535Pin i l) := by
  induction l using List.reverseRecOn with
  | nil => exact ⟨Or.inl rfl, Or.inl rfl⟩
  | append_singleton l c ih => rw [run9535_snoc, pin9535_snoc]; exact known_step i hi _ _ _ _ _ ih

private theorem chip9535_step (c : Pca9535.Call) (ok : Bool) (ext : BitVec 16) (s : Pca9535) :
    (Pca9535.step c ok ext s).chipConfiguration =
      (if isDir9535 c && ok then (Pca9535.step c ok ext s).configuration else s.chipConfiguration) ∧
    (Pca9535.step c ok ext s).chipOutput =
      (if isLevel9535 c && ok then (Pca9535.step c ok ext s).output else s.chipOutput) := by
  cases c <;> cases ok <;> simp [Pca9535.step, Pca9535.writeMemory, isDir9535, isLevel9535]

/-- What holds for the PCA9535, whatever driver and chip hold at first: with acknowledged transfers a pin some call made
an input is not driven, a pin some call made an output is, and at the level it was given last if any call gave it one. -/
theorem C195_pca9535_partial (s : Pca9535) (l : List (Pca9535.Call × Bool × BitVec 16))
    (hok : ∀ c ∈ l, c.2.1 = true) (i : Nat) (hi : i < 16) :
    (∀ d, (pca9535Pin i l).out = some d →
      ((Pca9535.run l s).drives i).isSome = d ∧ (Pca9535.run l s).isOutput i = d) ∧
    (∀ v, (pca9535Pin i l).level = some v →
      (Pca9535.run l s).isSet i = v ∧ ∀ w, (Pca9535.run l s).drives i = some w → w = v) := by
  have hk := run_known i hi l s
  have hchip : (∀ d, (pca9535Pin i l).out = some d → (Pca9535.run l s).chipConfiguration.getLsbD i = !d) ∧
      (∀ v, (pca9535Pin i l).level = some v → (Pca9535.run l s).chipOutput.getLsbD i = v) := by
    clear hk
    induction l using List.reverseRecOn with
    | nil => constructor <;> intro v hv <;> cases hv
    | append_singleton l c ih =>
        have ih := ih fun d hd => hok d (by simp [hd])
        have hc := hok c (by simp)
        have hk := run_known i hi (l ++ [c]) s
        have hs := chip9535_step c.1 c.2.1 c.2.2 (Pca9535.run l s)
        rw [run9535_snoc, pin9535_snoc] at *
        constructor
        · intro d hd
          rw [hs.1]
          cases hdir : isDir9535 c.1
          · simp only [Bool.false_and, Bool.false_eq_true, if_false]
            apply ih.1
            rw [← hd]
            obtain ⟨c, ok, e⟩ := c
            cases c <;> simp [isDir9535] at hdir <;> simp only [pca9535Say, Known.hear]
            case update q v => cases v <;> simp only [Bool.false_eq_true, if_false, if_true] <;> split <;> rfl
            case writePort q => cases q.getLsbD i <;> rfl
            all_goals (split <;> rfl)
          · rw [hc] at hk ⊢
            exact hk.out d hd
        · intro v hv
          rw [hs.2]
          cases hlev : isLevel9535 c.1
          · simp only [Bool.false_and, Bool.false_eq_true, if_false]
            apply ih.2
            rw [← hv]
            obtain ⟨c, ok, e⟩ := c
            cases c <;> simp [isLevel9535] at hlev <;> simp only [pca9535Say, Known.hear]
            all_goals (split <;> rfl)
          · rw [hc] at hk ⊢
            exact hk.level v hv
  unfold Pca9535.drives Pca9535.isOutput Pca9535.isSet
  rw [any_twoPow _ _ hi, any_twoPow _ _ hi]
  refine ⟨fun d hd => ?_, fun v hv => ?_⟩
  · rw [hchip.1 d hd, hk.out d hd]
    cases d <;> simp
  · rw [hchip.2 v hv, hk.level v hv]
    refine ⟨rfl, fun w hw => ?_⟩
    split at hw
    · cases hw
    · exact (Option.some.inj hw).symm

/-- Failed transfers are made good by the next acknowledged call about levels. -/
theorem C195_pca9535_heals_partial (s : Pca9535) (l : List (Pca9535.Call × Bool × BitVec 16)) (c : Pca9535.Call)
    (hc : isLevel9535 c = true) (e : BitVec 16) (i : Nat) (hi : i < 16) (v w : Bool)
    (hv : (pca9535Pin i (l ++ [(c, true, e)])).level = some v)
    (hw : (Pca9535.run (l ++ [(c, true, e)]) s).drives i = some w) : w = v := by
  have hk := run_known i hi (l ++ [(c, true, e)]) s
  have hs := (chip9535_step c true e (Pca9535.run l s)).2
  rw [run9535_snoc] at hk hw
  simp only [hc, Bool.true_and, if_true] at hs
  unfold Pca9535.drives at hw
  split at hw
  · cases hw
  · have h1 := Option.some.inj hw
    simp only at h1
    rw [← h1, hs]
    exact hk.level v hv

example : (pca9535Pin 3 [(.setInput 0xffff, true, 0), (.writePort 0, true, 0), (.setOutput 0x0008, true, 0),
      (.toggle 0x000f, true, 0)]) = ⟨some true, some true⟩ ∧
    (Pca9535.run [(.setInput 0xffff, true, 0), (.writePort 0, true, 0), (.setOutput 0x0008, true, 0),
      (.toggle 0x000f, true, 0)] Pca9535.powerOn).drives 4 = none := by decide

/-! ### PCA8574 -/

/-- What a call says about pin `i`. -/
def pca8574Say (i : Nat) : Pca8574.Call → Say
  | .setOutput p => .beOutput (p.getLsbD i)
  | .setInput p => .beInput (p.getLsbD i)
  | .set p => .high (p.getLsbD i)
  | .reset p => .low (p.getLsbD i)
  | .toggle p => .flip (p.getLsbD i)
  | .update p v => if v then .high (p.getLsbD i) else .low (p.getLsbD i)
  | .writePort d => if d.getLsbD i then .high true else .low true
  | .readInput => .nothing

def pca8574Pin (i : Nat) (l : List (Pca8574.Call × Bool × BitVec 8)) : Soft :=
  Soft.after (l.map fun c => pca8574Say i c.1)

/-- C196, the full claim: an input is never pulled low by the chip. -/
def C196_full : Prop :=
  ∀ (l : List (Pca8574.Call × Bool × BitVec 8)), (∀ c ∈ l, c.2.1 = true) → ∀ i, i < 8 →
    (pca8574Pin i l).out = false → (Pca8574.run l Pca8574.powerOn).pullsLow i = false

/-- `writePort(0)` pulls inputs low, too: the interface promises to modify outputs only. -/
theorem C196_writePort_counterexample : ¬ C196_full := by
  intro h
  have := h [(.setInput 1, true, 0), (.writePort 0, true, 0)] (by decide) 0 (by omega) (by decide)
  revert this
  decide

/-- No `writePort` gives a 0 to pin `i` while it is an input. -/
def fair (i : Nat) (l : List (Pca8574.Call × Bool × BitVec 8)) : Prop :=
  ∀ a d ok e b, l = a ++ (.writePort d, ok, e) :: b → (pca8574Pin i a).out = false → d.getLsbD i = true

private structure Soft8574 (i : Nat) (s : Pca8574) (p : Soft) : Prop where
  out : s.direction.getLsbD i = p.out
  level : s.output.getLsbD i = p.level
  released : p.out = false → p.level = true

private theorem soft_step (i : Nat) (hi : i < 8) (c : Pca8574.Call) (ok : Bool) (ext : BitVec 8) (s : Pca8574)
    (p : Soft) (h : Soft8574 i s p) (hf : ∀ d, c = .writePort d → p.out = false → d.getLsbD i = true) :
    Soft8574 i (Pca8574.step c ok ext s) (p.hear (pca8574Say i c)) := by
  obtain ⟨h1, h2, h3⟩ := h
  obtain ⟨o, lv⟩ := p
  cases c with
  | update q v =>
      cases hn : q.getLsbD i <;> cases v <;> cases ok <;> cases o <;> constructor <;>
        simp_all [Pca8574.step, Pca8574.writePort, pca8574Say, Soft.hear, Flags.update, BitVec.getLsbD_and,
          BitVec.getLsbD_or, BitVec.getLsbD_not, -BitVec.getLsbD_eq_getElem]
  | writePort q =>
      cases hn : q.getLsbD i <;> cases ok <;> cases o <;> constructor <;>
        simp_all [Pca8574.step, Pca8574.writePort, pca8574Say, Soft.hear, -BitVec.getLsbD_eq_getElem]
  | readInput =>
      cases ok <;> constructor <;>
        simp_all [Pca8574.step, pca8574Say, Soft.hear, -BitVec.getLsbD_eq_getElem]
  | _ q =>
      cases hn : q.getLsbD i <;> cases ok <;> cases o <;> constructor <;>
        simp_all [Pca8574.step, Pca8574.writePort, pca8574Say, Soft.hear, Flags.set, Flags.reset, Flags.toggle,
          BitVec.getLsbD_and, BitVec.getLsbD_or, BitVec.getLsbD_xor, BitVec.getLsbD_not, -BitVec.getLsbD_eq_getElem]

private theorem run8574_snoc (l : List (Pca8574.Call × Bool × BitVec 8)) (c : Pca8574.Call × Bool × BitVec 8)
    (s : Pca8574) : Pca8574.run (l ++ [c]) s = Pca8574.step c.1 c.2.1 c.2.2 (Pca8574.run l s) := by
  simp [Pca8574.run]

private theorem pin8574_snoc (i : Nat) (l : List (Pca8574.Call × Bool × BitVec 8))
    (c : Pca8574.Call × Bool × BitVec 8) : pca8574Pin i (l ++ [c]) = (pca8574Pin i l).hear (pca8574Say i c.1) := by
  simp [pca8574Pin, Soft.after]

private theorem run_soft (i : Nat) (hi : i < 8) (l : List (Pca8574.Call × Bool × BitVec 8)) (hf : fair i l) :
    Soft8574 i (Pca8574.run l Pca8574.powerOn) (pca8574Pin i l) := by
  induction l using List.reverseRecOn with
  | nil =>
      constructor
      · interval_cases i <;> rfl
      · interval_cases i <;> rfl
      · intro h; cases h
  | append_singleton l c ih =>
      rw [run8574_snoc, pin8574_snoc]
      refine soft_step i hi _ _ _ _ _ (ih fun a d ok e b h => ?_) ?_
      · exact hf a d ok e (b ++ [c]) (by simp [h])
      · intro d hd ho
        obtain ⟨c, ok, e⟩ := c
        simp only at hd
        subst hd
        exact hf l d ok e [] rfl ho

private theorem run8574_chip (l : List (Pca8574.Call × Bool × BitVec 8)) (hok : ∀ c ∈ l, c.2.1 = true) :
    (Pca8574.run l Pca8574.powerOn).chip = (Pca8574.run l Pca8574.powerOn).output := by
  induction l using List.reverseRecOn with
  | nil => rfl
  | append_singleton l c ih =>
      have ih := ih fun d hd => hok d (by simp [hd])
      have hc := hok c (by simp)
      rw [run8574_snoc, hc]
      cases c.1 <;> simp [Pca8574.step, Pca8574.writePort, ih]

/-- What holds for the PCA8574 from power-on: as long as `writePort` is given ones for inputs, and with acknowledged
transfers, the chip pulls exactly those pins low that are outputs told so; inputs are released, so that `readInput()`
reads what is connected to them. -/
theorem C196_pca8574_partial (l : List (Pca8574.Call × Bool × BitVec 8)) (hok : ∀ c ∈ l, c.2.1 = true)
    (i : Nat) (hi : i < 8) (hf : fair i l) :
    let s := Pca8574.run l Pca8574.powerOn
    s.pullsLow i = !(pca8574Pin i l).level ∧ s.isSet i = (pca8574Pin i l).level ∧
      ((pca8574Pin i l).out = false → s.pullsLow i = false ∧
        ∀ e, (Pca8574.step .readInput true e s).input.getLsbD i = e.getLsbD i) := by
  intro s
  have h : Soft8574 i s (pca8574Pin i l) := run_soft i hi l hf
  have hc : s.chip = s.output := run8574_chip l hok
  unfold Pca8574.pullsLow Pca8574.isSet
  rw [any_twoPow _ _ hi, hc, h.level]
  refine ⟨rfl, rfl, fun ho => ⟨?_, fun e => ?_⟩⟩
  · rw [h.released ho]; rfl
  · simp only [Pca8574.step, if_true, hc, BitVec.getLsbD_and]
    rw [h.level, h.released ho, Bool.and_true]

/-- Without `writePort` nothing has to be minded. -/
theorem C196_pca8574_without_writePort_partial (l : List (Pca8574.Call × Bool × BitVec 8))
    (hok : ∀ c ∈ l, c.2.1 = true) (hw : ∀ c ∈ l, ∀ d, c.1 ≠ .writePort d) (i : Nat) (hi : i < 8)
    (ho : (pca8574Pin i l).out = false) : (Pca8574.run l Pca8574.powerOn).pullsLow i = false := by
  refine ((C196_pca8574_partial l hok i hi ?_).2.2 ho).1
  intro a d ok e b h _
  exact absurd rfl (hw (.writePort d, ok, e) (by simp [h]) d)

example : (pca8574Pin 0 [(.reset 0xff, true, 0), (.setInput 1, true, 0), (.toggle 0xff, true, 0), (.writePort 1, true, 0)]) =
      ⟨false, true⟩ ∧
    (Pca8574.run [(.reset 0xff, true, 0), (.setInput 1, true, 0), (.toggle 0xff, true, 0), (.writePort 1, true, 0)]
      Pca8574.powerOn).pullsLow 3 = true := by decide

/-! ### Ports -/

private theorem dataMask_bit (w width k : Nat) (hk : k < w) :
    (Port.dataMask w width).getLsbD k = decide (k < width) := by
  unfold Port.dataMask
  rw [BitVec.getLsbD_ofNat, Nat.testBit_two_pow_sub_one]
  simp [hk]

private theorem portMask_bit (w start width k : Nat) (hk : k < w) :
    (Port.portMask w start width).getLsbD k = decide (start ≤ k ∧ k < start + width) := by
  unfold Port.portMask
  rw [BitVec.getLsbD_shiftLeft]
  by_cases h : k < start
  · simp [hk, h]
  · rw [dataMask_bit _ _ _ (by omega)]
    simp only [hk, h, decide_true, decide_false, Bool.not_false, Bool.and_true, Bool.true_and]
    congr 1
    rw [eq_iff_iff]
    omega

private theorem startReversed_eq (w start width : Nat) (hw : w < 256) (he : w % 2 = 0) (h : start + width ≤ w) :
    Port.startReversed w start width = w - start - width := by
  unfold Port.startReversed
  omega

/-- C197, writing: the value given to the expander has bit `i` of the data at the port's pin `i` and, at all other
pins, what the expander had as output. -/
theorem C197_write {w : Nat} (start width : Nat) (outputs data : BitVec w) (k : Nat) (hk : k < w) :
    (Port.write start width outputs data).getLsbD k =
      if start ≤ k ∧ k < start + width then data.getLsbD (k - start) else outputs.getLsbD k := by
  unfold Port.write
  simp only [BitVec.getLsbD_or, BitVec.getLsbD_and, BitVec.getLsbD_not, BitVec.getLsbD_shiftLeft, hk,
    portMask_bit _ _ _ _ hk, decide_true, Bool.true_and]
  by_cases h1 : k < start
  · have : ¬ (start ≤ k ∧ k < start + width) := by omega
    simp [h1, this]
  · rw [dataMask_bit _ _ _ (by omega)]
    by_cases h2 : k < start + width
    · have h3 : start ≤ k ∧ k < start + width := by omega
      have h4 : k - start < width := by omega
      simp [h1, h3, h4]
    · have h3 : ¬ (start ≤ k ∧ k < start + width) := by omega
      have h4 : ¬ (k - start < width) := by omega
      simp [h1, h3, h4]

/-- C197, reading: bit `i` of the result is the port's pin `i`, the others are 0. -/
theorem C197_read {w : Nat} (start width : Nat) (inputs : BitVec w) (i : Nat) :
    (Port.read start width inputs).getLsbD i = (decide (i < width) && inputs.getLsbD (start + i)) := by
  unfold Port.read
  rw [BitVec.getLsbD_ushiftRight, BitVec.getLsbD_and]
  by_cases hi : start + i < w
  · rw [portMask_bit _ _ _ _ hi, Bool.and_comm]
    congr 2
    rw [eq_iff_iff]
    omega
  · rw [BitVec.getLsbD_of_ge _ _ (by omega)]
    simp

/-- What `modm::bitReverse` does (C18). -/
private def Reverses {w : Nat} (rev : BitVec w → BitVec w) : Prop :=
  ∀ x k, k < w → (rev x).getLsbD k = x.getLsbD (w - 1 - k)

private theorem writeReversed_bit {w : Nat} (rev : BitVec w → BitVec w) (hr : Reverses rev) (hw : w < 256)
    (he : w % 2 = 0) (start width : Nat) (outputs data : BitVec w) (h : start + width ≤ w) (k : Nat) (hk : k < w) :
    (Port.writeReversed rev start width outputs data).getLsbD k =
      if start ≤ k ∧ k < start + width then data.getLsbD (start + width - 1 - k) else outputs.getLsbD k := by
  unfold Port.writeReversed
  simp only [BitVec.getLsbD_or, BitVec.getLsbD_and, BitVec.getLsbD_not, hk, portMask_bit _ _ _ _ hk, hr _ _ hk,
    BitVec.getLsbD_shiftLeft, startReversed_eq w start width hw he h]
  by_cases h3 : start ≤ k ∧ k < start + width
  · have h4 : ¬ (w - 1 - k < w - start - width) := by omega
    have h5 : w - 1 - k - (w - start - width) = start + width - 1 - k := by omega
    have h6 : w - 1 - k < w := by omega
    simp [h3, h4, h5, h6]
  · simp [h3]

private theorem readReversed_bit {w : Nat} (rev : BitVec w → BitVec w) (hr : Reverses rev) (hw : w < 256)
    (he : w % 2 = 0) (start width : Nat) (inputs : BitVec w) (h : start + width ≤ w) (i : Nat) :
    (Port.readReversed rev start width inputs).getLsbD i =
      (decide (i < width) && inputs.getLsbD (start + width - 1 - i)) := by
  unfold Port.readReversed
  rw [BitVec.getLsbD_ushiftRight, startReversed_eq w start width hw he h]
  by_cases hi : w - start - width + i < w
  · rw [hr _ _ hi, BitVec.getLsbD_and, portMask_bit _ _ _ _ (by omega), Bool.and_comm]
    by_cases hiw : i < width
    · have e : w - 1 - (w - start - width + i) = start + width - 1 - i := by omega
      have h4 : start ≤ start + width - 1 - i ∧ start + width - 1 - i < start + width := by omega
      rw [e]
      simp [h4, hiw]
    · have h4 : ¬ (start ≤ w - 1 - (w - start - width + i) ∧ w - 1 - (w - start - width + i) < start + width) := by omega
      simp [h4, hiw]
  · rw [BitVec.getLsbD_of_ge _ _ (by omega)]
    have : ¬ i < width := by omega
    simp [this]

private theorem rev8 : Reverses Modm.BitOps.bitReverse8 := fun x k hk => by
  rw [Props.C18_bitReverse8 x k hk]

private theorem rev16 : Reverses Modm.BitOps.bitReverse16 := fun x k hk => by
  rw [Props.C18_bitReverse16 x k hk]

/-- C197, reversed ports of 8 bit expanders: the same with the port's pins counted from the other end. -/
theorem C197_reversed8 (start width : Nat) (h : start + width ≤ 8) (outputs data inputs : BitVec 8) :
    (∀ k, k < 8 → (Port.writeReversed Modm.BitOps.bitReverse8 start width outputs data).getLsbD k =
      if start ≤ k ∧ k < start + width then data.getLsbD (start + width - 1 - k) else outputs.getLsbD k) ∧
    (∀ i, (Port.readReversed Modm.BitOps.bitReverse8 start width inputs).getLsbD i =
      (decide (i < width) && inputs.getLsbD (start + width - 1 - i))) :=
  ⟨fun k hk => writeReversed_bit _ rev8 (by omega) (by omega) _ _ _ _ h k hk,
   fun i => readReversed_bit _ rev8 (by omega) (by omega) _ _ _ h i⟩

/-- C197, reversed ports of 16 bit expanders. -/
theorem C197_reversed16 (start width : Nat) (h : start + width ≤ 16) (outputs data inputs : BitVec 16) :
    (∀ k, k < 16 → (Port.writeReversed Modm.BitOps.bitReverse16 start width outputs data).getLsbD k =
      if start ≤ k ∧ k < start + width then data.getLsbD (start + width - 1 - k) else outputs.getLsbD k) ∧
    (∀ i, (Port.readReversed Modm.BitOps.bitReverse16 start width inputs).getLsbD i =
      (decide (i < width) && inputs.getLsbD (start + width - 1 - i))) :=
  ⟨fun k hk => writeReversed_bit _ rev16 (by omega) (by omega) _ _ _ _ h k hk,
   fun i => readReversed_bit _ rev16 (by omega) (by omega) _ _ _ h i⟩

/-- C197, together: what is written through a port of a PCA8574 whose pins are outputs is pulled and released there,
and no other pin changes. -/
theorem C197_pca8574 (s : Pca8574) (start width : Nat) (data : BitVec 8) (e : BitVec 8)
    (k : Nat) (hk : k < 8) (hs : s.chip = s.output) :
    (Pca8574.step (.writePort (Port.write start width s.output data)) true e s).pullsLow k =
      if start ≤ k ∧ k < start + width then !data.getLsbD (k - start) else s.pullsLow k := by
  unfold Pca8574.pullsLow
  simp only [Pca8574.step, Pca8574.writePort, if_true]
  rw [C197_write _ _ _ _ k hk, hs]
  split <;> rfl

example : Port.write (w := 8) 4 4 0x0f 0x05 = 0x5f#8 ∧
    Port.writeReversed Modm.BitOps.bitReverse8 4 4 0x00 0x05 = 0xa0#8 ∧
    Port.read (w := 8) 4 4 0x5f = 0x05#8 ∧
    Port.readReversed Modm.BitOps.bitReverse16 6 8 0x0040 = 0x80#16 := by decide

/-! ### Pins -/

/-- C198, the full claim for a pin of an MCP23x17: `setOutput(value)` configures the pin as an output and sets it high
or low (gpio.hpp:85-87). -/
def C198_full : Prop :=
  ∀ (chip : Nat → BitVec 8) (ext : BitVec 16) (l : List (Mcp.Call × Bool × BitVec 16)), (∀ c ∈ l, c.2.1 = true) →
    ∀ i, i < 16 → ∀ v e, (Mcp.pinSetOutput i v true e (Mcp.run l (ready chip ext))).drives i = some v

/-- After `initialize()` it leaves the pin an input. -/
theorem C198_setOutput_counterexample : ¬ C198_full := by
  intro h
  have := h (fun _ => 0) 0 [] (by simp) 0 (by omega) true 0
  revert this
  decide +kernel

/-- A later `setOutput()` does not make up for it: the pin is then driven low, though `setOutput(true)` was called. -/
theorem C198_then_output_counterexample :
    (Mcp.step (.setOutput 1) true 0 (Mcp.pinSetOutput 0 true true 0 (ready (fun _ => 0) 0))).drives 0 = some false := by
  decide +kernel

/-- The same with a PCA9535. -/
theorem C198_pca9535_counterexample : (Pca9535.pinSetOutput 0 false true 0 Pca9535.powerOn).drives 0 = none := by
  decide

/-- On pins which are outputs already it sets the level. -/
theorem C198_setOutput_partial (chip : Nat → BitVec 8) (ext : BitVec 16) (l : List (Mcp.Call × Bool × BitVec 16))
    (hok : ∀ c ∈ l, c.2.1 = true) (i : Nat) (hi : i < 16) (v : Bool) (e : BitVec 16)
    (ho : ((Mcp.run l (ready chip ext)).drives i).isSome = true) :
    (Mcp.pinSetOutput i v true e (Mcp.run l (ready chip ext))).drives i = some v := by
  have hout : (mcpPin i l).out = true := by
    rw [← (C193_mcp23x17_pins chip ext l hok i hi).1]; exact ho
  have hok' : ∀ c ∈ l ++ [(Mcp.Call.update (BitVec.twoPow 16 i) v, true, e)], c.2.1 = true := by
    intro c hc
    rcases List.mem_append.1 hc with hc | hc
    · exact hok c hc
    · rw [List.mem_singleton.1 hc]
  have hbit : (BitVec.twoPow 16 i).getLsbD i = true := by
    rw [BitVec.getLsbD_twoPow]; simp [hi]
  have hpin : (mcpPin i (l ++ [(Mcp.Call.update (BitVec.twoPow 16 i) v, true, e)])).level = v ∧
      (mcpPin i (l ++ [(Mcp.Call.update (BitVec.twoPow 16 i) v, true, e)])).out = true := by
    rw [mcpPin_snoc]
    cases v <;> simp [mcpSay, Pin.hear, hout, hi]
  have h1 := (C193_mcp23x17_pins chip ext _ hok' i hi).1
  have h2 := C194_mcp23x17_levels_partial chip ext l (.update (BitVec.twoPow 16 i) v) rfl e i hi
  rw [hpin.1] at h2
  rw [hpin.2] at h1
  rw [show Mcp.pinSetOutput i v true e (Mcp.run l (ready chip ext)) =
    Mcp.run (l ++ [(Mcp.Call.update (BitVec.twoPow 16 i) v, true, e)]) (ready chip ext) from
    (run_snoc l (Mcp.Call.update (BitVec.twoPow 16 i) v, true, e) (ready chip ext)).symm]
  obtain ⟨u, hu⟩ := Option.isSome_iff_exists.1 h1
  rw [hu, h2 u hu]

example : ((Mcp.run [(.setOutput 1, true, 0)] (ready (fun _ => 0) 0)).drives 0).isSome = true := by decide +kernel

end Props.GpioExpander
