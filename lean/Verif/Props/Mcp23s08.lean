import Verif.Model.Mcp23s08
/-!
C374: the port expander MCP23S08.
-/

set_option autoImplicit false

namespace Props.Mcp23s08
open Model.Mcp23s08

/-- What a user sees: which pins are inputs, which have pull-ups, what outputs show, the levels from outside. -/
structure Port where
  inputs : Byte
  pullups : Byte
  outputs : Byte
  pins : Byte

/-- The byte with these bits. -/
def ofBits (f : Nat → Bool) : Byte := (BitVec.ofBoolListLE ((List.range 8).map f)).setWidth 8

def portStep (p : Port) : Op → Port × Option Byte
  | .init => (p, none)
  | .configure i u => (⟨i, u, p.outputs, p.pins⟩, none)
  | .read => (p, some (ofBits fun i => if p.inputs.getLsbD i then p.pins.getLsbD i else p.outputs.getLsbD i))
  | .write o => (⟨p.inputs, p.pullups, o, p.pins⟩, none)
  | .outside l => (⟨p.inputs, p.pullups, p.outputs, l⟩, none)

def portRun (p : Port) : List Op → Port × List (Option Byte)
  | [] => (p, [])
  | o :: os => let r := portStep p o; let q := portRun r.1 os; (q.1, r.2 :: q.2)

/-- The registers of the expander are those of the port; polarity and interrupts are off. -/
def shows (s : State) (p : Port) : Prop :=
  s.regs 0 = p.inputs ∧ s.regs 6 = p.pullups ∧ s.regs 10 = p.outputs ∧ s.pins = p.pins
  ∧ (∀ r, r ≠ 0 → r ≠ 5 → r ≠ 6 → r ≠ 10 → s.regs r = 0#8) ∧ s.selected = false

theorem writeFrame_eq (s : State) (r b : Byte) :
    writeFrame s r b = ⟨Function.update s.regs (if r.toNat = 9 then 10 else r.toNat) b, s.pins, false, [b, r, 0x40#8]⟩ := by
  simp [writeFrame, spi, csReset, csSet, deviceAddress, WRITE, pointer]

theorem read_eq (s : State) :
    Model.Mcp23s08.read s = (⟨s.regs, s.pins, false, [0#8, 9#8, 0x41#8]⟩, (s.pins &&& s.regs 0 ||| s.regs 10 &&& ~~~s.regs 0) ^^^ s.regs 1) := by
  simp [Model.Mcp23s08.read, spi, csReset, csSet, deviceAddress, READ, pointer, value]

theorem select_eq (i l o : Byte) : (l &&& i ||| o &&& ~~~i) ^^^ 0#8
    = ofBits fun k => if i.getLsbD k then l.getLsbD k else o.getLsbD k := by
  apply BitVec.eq_of_getLsbD_eq
  intro k hk
  rw [ofBits, BitVec.getLsbD_setWidth, BitVec.getLsbD_ofBoolListLE]
  rw [show ((List.range 8).map fun k => if i.getLsbD k then l.getLsbD k else o.getLsbD k).getD k false = (if i.getLsbD k then l.getLsbD k else o.getLsbD k) by
    simp [List.getD, hk]]
  simp only [hk, decide_true, Bool.true_and, BitVec.getLsbD_xor, BitVec.getLsbD_or, BitVec.getLsbD_and, BitVec.getLsbD_not, BitVec.getLsbD_zero]
  cases i.getLsbD k <;> simp

theorem step_shows (s : State) (p : Port) (o : Op) (h : shows s p) : shows (step s o).1 (portStep p o).1 ∧ (step s o).2 = (portStep p o).2 := by
  obtain ⟨h0, h6, h10, hp, hz, hs⟩ := h
  cases o with
  | init =>
    refine ⟨?_, rfl⟩
    simp only [step, portStep, init, writeFrame_eq]
    refine ⟨?_, ?_, ?_, hp, ?_, rfl⟩
    · simpa [Function.update, csSet] using h0
    · simpa [Function.update, csSet] using h6
    · simpa [Function.update, csSet] using h10
    · intro r a b c d
      simp [Function.update, csSet, b, hz r a b c d]
  | configure i u =>
    refine ⟨?_, rfl⟩
    simp only [step, portStep, configure, writeFrame_eq]
    refine ⟨?_, ?_, ?_, hp, ?_, rfl⟩
    · simp [Function.update]
    · simp [Function.update]
    · simpa [Function.update] using h10
    · intro r a b c d
      simp [Function.update, a, c, hz r a b c d]
  | read =>
    simp only [step, portStep, read_eq]
    refine ⟨⟨h0, h6, h10, hp, hz, rfl⟩, ?_⟩
    rw [h0, h10, hp, hz 1 (by decide) (by decide) (by decide) (by decide), select_eq]
  | write o =>
    refine ⟨?_, rfl⟩
    simp only [step, portStep, write, writeFrame_eq]
    refine ⟨?_, ?_, ?_, hp, ?_, rfl⟩
    · simpa [Function.update] using h0
    · simpa [Function.update] using h6
    · simp [Function.update]
    · intro r a b c d
      simp [Function.update, d, hz r a b c d]
  | outside l => exact ⟨⟨h0, h6, h10, rfl, hz, hs⟩, rfl⟩

/-- C374: after any calls and changes from outside since a reset, the expander has the directions, the pull-ups and the outputs asked
for last, all else but IOCON is as after the reset, and each `read()` returned the levels of inputs and the values of outputs. -/
theorem C374_port (pins : Byte) (os : List Op) :
    shows (run (powerOn pins) os).1 (portRun ⟨0xff#8, 0#8, 0#8, pins⟩ os).1
    ∧ (run (powerOn pins) os).2 = (portRun ⟨0xff#8, 0#8, 0#8, pins⟩ os).2 := by
  have key : ∀ (os : List Op) (s : State) (p : Port), shows s p → shows (run s os).1 (portRun p os).1 ∧ (run s os).2 = (portRun p os).2 := by
    intro os
    induction os with
    | nil => intro s p h; exact ⟨h, rfl⟩
    | cons o os ih =>
      intro s p h
      obtain ⟨h1, h2⟩ := step_shows s p o h
      obtain ⟨i1, i2⟩ := ih _ _ h1
      simp only [run, portRun]
      exact ⟨i1, by rw [h2, i2]⟩
  apply key
  refine ⟨rfl, rfl, rfl, rfl, ?_, rfl⟩
  intro r h _ _ _
  simp [powerOn, h]

/-- C374: `initialize()` makes the interrupt pin an open drain, and no call changes this. -/
theorem C374_interrupt (s : State) (os : List Op) : (run (init s) os).1.regs 5 = 0x04#8 := by
  have key : ∀ (os : List Op) (s : State), s.regs 5 = 0x04#8 → (run s os).1.regs 5 = 0x04#8 := by
    intro os
    induction os with
    | nil => intro s h; exact h
    | cons o os ih =>
      intro s h
      simp only [run]
      apply ih
      cases o with
      | init => simp [step, init, writeFrame_eq]
      | configure i u => simpa [step, configure, writeFrame_eq, Function.update] using h
      | read => simpa [step, read_eq] using h
      | write o => simpa [step, write, writeFrame_eq, Function.update] using h
      | outside l => exact h
  apply key
  simp [init, writeFrame_eq]

example : (run (powerOn 0x35#8) [.init, .configure 0xf0#8 0x80#8, .write 0xaa#8, .read, .outside 0xc0#8, .read]).2
    = [none, none, none, some 0x3a#8, none, some 0xca#8] := by decide +kernel

end Props.Mcp23s08
