import Verif.Spec.Mcp2515Filter
import Verif.Lemmas.CanFilter
import Mathlib.Tactic.IntervalCases
import Mathlib.Data.Fin.VecNotation
/-
Claim C176 about the acceptance filters of the MCP2515.
-/
set_option autoImplicit false
namespace Props.Mcp2515Filter
open Modm.Mcp2515Filter Spec.Mcp2515Filter

/-- The four bytes of filter `i` and of the mask of a group, by the macros. -/
def filterBytes {n : Nat} (i : Fin n) : Group n → List (BitVec 8)
  | .standard f _ => FILTER (f i)
  | .extended f _ => FILTER_EXTENDED (f i)

def maskBytes {n : Nat} : Group n → List (BitVec 8)
  | .standard _ m => MASK m
  | .extended _ m => MASK_EXTENDED m

/-- The table in the order of the documentation (mcp2515.hpp:33-46). -/
def table (g0 : Group 2) (g1 : Group 4) : List (BitVec 8) :=
  filterBytes 0 g0 ++ filterBytes 1 g0 ++ filterBytes 0 g1 ++ filterBytes 1 g1 ++ filterBytes 2 g1 ++ filterBytes 3 g1 ++
  maskBytes g0 ++ maskBytes g1

private theorem filter_len {n : Nat} (i : Fin n) (g : Group n) : ∃ a b c d, filterBytes i g = [a, b, c, d] := by
  cases g <;> exact ⟨_, _, _, _, rfl⟩

private theorem mask_len {n : Nat} (g : Group n) : ∃ a b c d, maskBytes g = [a, b, c, d] := by
  cases g <;> exact ⟨_, _, _, _, rfl⟩

private theorem run_polls (c : Chip) (n : Nat) : (c.run (List.replicate n (readRegister CANSTAT))) = c := by
  induction n with
  | zero => rfl
  | succ n ih => rw [List.replicate_succ]; exact ih

private theorem run_append (c : Chip) (a b : List Event) : c.run (a ++ b) = (c.run a).run b := by
  simp [Chip.run, List.foldl_append]

/-- A word of four registers. -/
private def Has (c : Chip) (a : Nat) (l : List (BitVec 8)) : Prop := [c.reg a, c.reg (a + 1), c.reg (a + 2), c.reg (a + 3)] = l

private theorem writes_reg (l : List (BitVec 8)) : ∀ (c : Chip) (a : Nat), c.mode = 4#3 →
    (∀ i, i < l.length → (a + i) % 16 ≠ 14 ∧ a + i ≠ 0x1c ∧ a + i ≠ 0x1d) →
    (c.writes a l).mode = 4#3 ∧ ∀ b, (c.writes a l).reg b = if a ≤ b then l.getD (b - a) (c.reg b) else c.reg b := by
  induction l with
  | nil => intro c a h _; exact ⟨h, fun b => by simp [Chip.writes]⟩
  | cons v l ih =>
    intro c a h hi
    have h0 := hi 0 (by simp)
    have hw : c.write a v = { c with reg := fun b => if b = a then v else c.reg b } := by
      unfold Chip.write
      rw [if_neg]
      simp only [h, Nat.add_zero] at *
      simp; omega
    have hm : (c.write a v).mode = 4#3 := by rw [hw]; exact h
    obtain ⟨h1, h2⟩ := ih (c.write a v) (a + 1) hm (fun i hl => by
      have := hi (i + 1) (by simpa using hl)
      rw [Nat.add_assoc, Nat.add_comm 1 i]; exact this)
    refine ⟨h1, fun b => ?_⟩
    show ((c.write a v).writes (a + 1) l).reg b = _
    rw [h2 b, hw]
    by_cases hb : b = a
    · subst hb; simp
    · by_cases hab : a ≤ b
      · rw [if_pos (by omega), if_pos hab]
        have : b - a = (b - (a + 1)) + 1 := by omega
        rw [this]
        simp [hb]
      · rw [if_neg (by omega), if_neg hab]; simp [hb]

private theorem write_one (c : Chip) (a v : BitVec 8) : c.step (writeRegister a v) = c.write a.toNat v := rfl

/-- The controller after `setFilter`. -/
private theorem after (c : Chip) (polls : Nat) (f0 f1 f2 f3 f4 f5 m0 m1 : List (BitVec 8))
    (h : f0.length = 4 ∧ f1.length = 4 ∧ f2.length = 4 ∧ f3.length = 4 ∧ f4.length = 4 ∧ f5.length = 4 ∧ m0.length = 4 ∧ m1.length = 4) :
    ∃ es, setFilter polls (f0 ++ f1 ++ f2 ++ f3 ++ f4 ++ f5 ++ m0 ++ m1) = some es ∧
      (let r := c.run es
      r.reg 0x60 = 0x04#8 ∧ r.reg 0x70 = 0#8 ∧ (r.reg 0x0f).extractLsb' 5 3 = 0#3 ∧
      Has r 0x00 f0 ∧ Has r 0x04 f1 ∧ Has r 0x08 f2 ∧ Has r 0x10 f3 ∧ Has r 0x14 f4 ∧ Has r 0x18 f5 ∧ Has r 0x20 m0 ∧ Has r 0x24 m1 ∧
      ∀ a, filterRegister a = false → a ≠ 0x60 → a ≠ 0x70 → a ≠ 0x0f → r.reg a = c.reg a) := by
  obtain ⟨h0, h1, h2, h3, h4, h5, h6, h7⟩ := h
  match f0, h0 with
  | [a0, a1, a2, a3], _ =>
  match f1, h1 with
  | [b0, b1, b2, b3], _ =>
  match f2, h2 with
  | [c0, c1, c2, c3], _ =>
  match f3, h3 with
  | [d0, d1, d2, d3], _ =>
  match f4, h4 with
  | [e0, e1, e2, e3], _ =>
  match f5, h5 with
  | [g0, g1, g2, g3], _ =>
  match m0, h6 with
  | [p0, p1, p2, p3], _ =>
  match m1, h7 with
  | [q0, q1, q2, q3], _ =>
  refine ⟨_, rfl, ?_⟩
  intro r
  have hr : r = c.run ([bitModify CANCTRL 0xe0#8 REQOP2] ++ List.replicate polls (readRegister CANSTAT) ++ [.modeReached, readRegister CANSTAT,
    writeRegister RXB0CTRL BUKT, writeRegister RXB1CTRL 0#8,
    .spi [WRITE, 0x00#8, a0, a1, a2, a3, b0, b1, b2, b3, c0, c1, c2, c3],
    .spi [WRITE, 0x10#8, d0, d1, d2, d3, e0, e1, e2, e3, g0, g1, g2, g3],
    .spi [WRITE, 0x20#8, p0, p1, p2, p3, q0, q1, q2, q3], bitModify CANCTRL 0xe0#8 0#8]) := rfl
  -- the controller in configuration mode
  have hreq : ∀ x : BitVec 8, (x &&& ~~~0xe0#8 ||| 0x80#8 &&& 0xe0#8).extractLsb' 5 3 = 4#3 := by decide
  have hclr : ∀ x : BitVec 8, (x &&& ~~~0xe0#8 ||| 0#8 &&& 0xe0#8).extractLsb' 5 3 = 0#3 := by decide
  obtain ⟨k, hk, hkm, hkr⟩ : ∃ k : Chip, c.run ([bitModify CANCTRL 0xe0#8 REQOP2] ++ List.replicate polls (readRegister CANSTAT) ++
      [.modeReached, readRegister CANSTAT]) = k ∧ k.mode = 4#3 ∧ ∀ a, a ≠ 0x0f → k.reg a = c.reg a := by
    refine ⟨_, rfl, ?_, ?_⟩
    · rw [run_append, run_append, run_polls]
      exact hreq (c.reg 0x0f)
    · intro a ha
      rw [run_append, run_append, run_polls]
      show (if a = 0x0f then _ else c.reg a) = c.reg a
      rw [if_neg ha]
  have hr2 : r = ((((((k.step (writeRegister RXB0CTRL BUKT)).step (writeRegister RXB1CTRL 0#8)).step
      (.spi [WRITE, 0x00#8, a0, a1, a2, a3, b0, b1, b2, b3, c0, c1, c2, c3])).step
      (.spi [WRITE, 0x10#8, d0, d1, d2, d3, e0, e1, e2, e3, g0, g1, g2, g3])).step
      (.spi [WRITE, 0x20#8, p0, p1, p2, p3, q0, q1, q2, q3])).step (bitModify CANCTRL 0xe0#8 0#8)) := by
    rw [hr, ← hk]
    rw [show ([bitModify CANCTRL 0xe0#8 REQOP2] ++ List.replicate polls (readRegister CANSTAT) ++ [.modeReached, readRegister CANSTAT,
      writeRegister RXB0CTRL BUKT, writeRegister RXB1CTRL 0#8,
      .spi [WRITE, 0x00#8, a0, a1, a2, a3, b0, b1, b2, b3, c0, c1, c2, c3],
      .spi [WRITE, 0x10#8, d0, d1, d2, d3, e0, e1, e2, e3, g0, g1, g2, g3],
      .spi [WRITE, 0x20#8, p0, p1, p2, p3, q0, q1, q2, q3], bitModify CANCTRL 0xe0#8 0#8]) =
      ([bitModify CANCTRL 0xe0#8 REQOP2] ++ List.replicate polls (readRegister CANSTAT) ++ [.modeReached, readRegister CANSTAT]) ++
      [writeRegister RXB0CTRL BUKT, writeRegister RXB1CTRL 0#8,
      .spi [WRITE, 0x00#8, a0, a1, a2, a3, b0, b1, b2, b3, c0, c1, c2, c3],
      .spi [WRITE, 0x10#8, d0, d1, d2, d3, e0, e1, e2, e3, g0, g1, g2, g3],
      .spi [WRITE, 0x20#8, p0, p1, p2, p3, q0, q1, q2, q3], bitModify CANCTRL 0xe0#8 0#8] by simp, run_append]
    rfl
  -- the rows
  obtain ⟨x0, x0h⟩ : ∃ x, x = k.writes 0x60 [BUKT] := ⟨_, rfl⟩
  obtain ⟨x1, x1h⟩ : ∃ x, x = x0.writes 0x70 [0#8] := ⟨_, rfl⟩
  obtain ⟨x2, x2h⟩ : ∃ x, x = x1.writes 0x00 [a0, a1, a2, a3, b0, b1, b2, b3, c0, c1, c2, c3] := ⟨_, rfl⟩
  obtain ⟨x3, x3h⟩ : ∃ x, x = x2.writes 0x10 [d0, d1, d2, d3, e0, e1, e2, e3, g0, g1, g2, g3] := ⟨_, rfl⟩
  obtain ⟨x4, x4h⟩ : ∃ x, x = x3.writes 0x20 [p0, p1, p2, p3, q0, q1, q2, q3] := ⟨_, rfl⟩
  have w0 := writes_reg [BUKT] k 0x60 hkm (by intro i hi; simp at hi; omega)
  rw [← x0h] at w0
  have w1 := writes_reg [0#8] x0 0x70 w0.1 (by intro i hi; simp at hi; omega)
  rw [← x1h] at w1
  have w2 := writes_reg [a0, a1, a2, a3, b0, b1, b2, b3, c0, c1, c2, c3] x1 0x00 w1.1 (by intro i hi; simp at hi; omega)
  rw [← x2h] at w2
  have w3 := writes_reg [d0, d1, d2, d3, e0, e1, e2, e3, g0, g1, g2, g3] x2 0x10 w2.1 (by intro i hi; simp at hi; omega)
  rw [← x3h] at w3
  have w4 := writes_reg [p0, p1, p2, p3, q0, q1, q2, q3] x3 0x20 w3.1 (by intro i hi; simp at hi; omega)
  rw [← x4h] at w4
  have hr3 : r = x4.step (bitModify CANCTRL 0xe0#8 0#8) := by rw [hr2, x4h, x3h, x2h, x1h, x0h]; rfl
  have hctrl : (r.reg 0x0f).extractLsb' 5 3 = 0#3 := by rw [hr3]; exact hclr (x4.reg 0x0f)
  have hreg : ∀ a, a ≠ 0x0f → r.reg a = x4.reg a := by
    intro a ha
    rw [hr3]
    show (if a = 0x0f then _ else x4.reg a) = x4.reg a
    rw [if_neg ha]
  refine ⟨?_, ?_, hctrl, ?_, ?_, ?_, ?_, ?_, ?_, ?_, ?_, ?_⟩
  · rw [hreg _ (by omega), w4.2, w3.2, w2.2, w1.2, w0.2]; rfl
  · rw [hreg _ (by omega), w4.2, w3.2, w2.2, w1.2, w0.2]; rfl
  · rw [Has, hreg _ (by omega), hreg _ (by omega), hreg _ (by omega), hreg _ (by omega)]; simp [w4.2, w3.2, w2.2]
  · rw [Has, hreg _ (by omega), hreg _ (by omega), hreg _ (by omega), hreg _ (by omega)]; simp [w4.2, w3.2, w2.2]
  · rw [Has, hreg _ (by omega), hreg _ (by omega), hreg _ (by omega), hreg _ (by omega)]; simp [w4.2, w3.2, w2.2]
  · rw [Has, hreg _ (by omega), hreg _ (by omega), hreg _ (by omega), hreg _ (by omega)]; simp [w4.2, w3.2]
  · rw [Has, hreg _ (by omega), hreg _ (by omega), hreg _ (by omega), hreg _ (by omega)]; simp [w4.2, w3.2]
  · rw [Has, hreg _ (by omega), hreg _ (by omega), hreg _ (by omega), hreg _ (by omega)]; simp [w4.2, w3.2]
  · rw [Has, hreg _ (by omega), hreg _ (by omega), hreg _ (by omega), hreg _ (by omega)]; simp [w4.2]
  · rw [Has, hreg _ (by omega), hreg _ (by omega), hreg _ (by omega), hreg _ (by omega)]; simp [w4.2]
  · intro a ha h60 h70 h0f
    have hf : ¬a < 12 ∧ ¬(16 ≤ a ∧ a < 28) ∧ ¬(32 ≤ a ∧ a < 40) := by
      simp [filterRegister] at ha; omega
    have key : ∀ (l : List (BitVec 8)) (n : Nat) (d : BitVec 8), ¬(n ≤ a ∧ a < n + l.length) → (if n ≤ a then l.getD (a - n) d else d) = d := by
      intro l n d hn
      by_cases hna : n ≤ a
      · rw [if_pos hna, List.getD_eq_getElem?_getD, List.getElem?_eq_none (by omega)]; rfl
      · rw [if_neg hna]
    rw [hreg a h0f, w4.2, w3.2, w2.2, w1.2, w0.2, key _ _ _ (by simp; omega), key _ _ _ (by simp; omega), key _ _ _ (by simp; omega),
      key _ _ _ (by simp; omega), key _ _ _ (by simp; omega)]
    exact hkr a h0f

/-! ## Words -/

private theorem std_sid (id : BitVec 32) : (((id >>> 3).setWidth 8 : BitVec 8) ++ ((id <<< 5).setWidth 8 : BitVec 8).extractLsb' 5 3 : BitVec 11) = id.setWidth 11 := by
  apply BitVec.eq_of_getLsbD_eq; intro i hi
  simp only [BitVec.getLsbD_append, BitVec.getLsbD_extractLsb', BitVec.getLsbD_shiftLeft, BitVec.getLsbD_setWidth, BitVec.getLsbD_ushiftRight]
  interval_cases i <;> simp

private theorem ext_sid (id : BitVec 32) :
    (((id >>> 21).setWidth 8 : BitVec 8) ++ ((((id >>> 13) &&& 0xe0#32) ||| (1#32 <<< 3) ||| ((id >>> 16) &&& 0x3#32)).setWidth 8 : BitVec 8).extractLsb' 5 3 : BitVec 11) =
      id.extractLsb' 18 11 := by
  apply BitVec.eq_of_getLsbD_eq; intro i hi
  simp only [BitVec.getLsbD_append, BitVec.getLsbD_extractLsb', BitVec.getLsbD_shiftLeft, BitVec.getLsbD_setWidth, BitVec.getLsbD_ushiftRight,
    BitVec.getLsbD_or, BitVec.getLsbD_and]
  interval_cases i <;> simp

private theorem ext_eid (id : BitVec 32) :
    (((((id >>> 13) &&& 0xe0#32) ||| (1#32 <<< 3) ||| ((id >>> 16) &&& 0x3#32)).setWidth 8 : BitVec 8).extractLsb' 0 2 ++
      ((id >>> 8).setWidth 8 : BitVec 8) ++ (id.setWidth 8 : BitVec 8) : BitVec 18) = id.setWidth 18 := by
  apply BitVec.eq_of_getLsbD_eq; intro i hi
  simp only [BitVec.getLsbD_append, BitVec.getLsbD_extractLsb', BitVec.getLsbD_shiftLeft, BitVec.getLsbD_setWidth, BitVec.getLsbD_ushiftRight,
    BitVec.getLsbD_or, BitVec.getLsbD_and]
  interval_cases i <;> simp

private theorem masked_bits {n : Nat} (x y m : BitVec n) : x &&& m = y &&& m ↔ ∀ j, j < n → m.getLsbD j = true → x.getLsbD j = y.getLsbD j := by
  constructor
  · intro h j _ hm
    have := congrArg (fun z => BitVec.getLsbD z j) h
    simpa [hm] using this
  · intro h
    apply BitVec.eq_of_getLsbD_eq
    intro j hj
    rw [BitVec.getLsbD_and, BitVec.getLsbD_and]
    cases hb : m.getLsbD j with
    | false => simp
    | true => simp [h j hj hb]

private theorem has_std {c : Chip} {a : Nat} {id : BitVec 32} (h : Has c a (FILTER id)) :
    c.sid a = id.setWidth 11 ∧ c.eid a = 0#18 ∧ c.exide a = false := by
  simp only [Has, FILTER, List.cons.injEq, and_true] at h
  obtain ⟨h0, h1, h2, h3⟩ := h
  refine ⟨?_, ?_, ?_⟩
  · rw [Chip.sid, h0, h1]; exact std_sid id
  · rw [Chip.eid, h1, h2, h3]
    apply BitVec.eq_of_getLsbD_eq; intro i hi
    simp only [BitVec.getLsbD_append, BitVec.getLsbD_extractLsb', BitVec.getLsbD_shiftLeft, BitVec.getLsbD_setWidth]
    interval_cases i <;> simp
  · rw [Chip.exide, h1]; simp

private theorem has_ext {c : Chip} {a : Nat} {id : BitVec 32} (h : Has c a (FILTER_EXTENDED id)) :
    c.sid a = id.extractLsb' 18 11 ∧ c.eid a = id.setWidth 18 ∧ c.exide a = true := by
  simp only [Has, FILTER_EXTENDED, List.cons.injEq, and_true] at h
  obtain ⟨h0, h1, h2, h3⟩ := h
  refine ⟨?_, ?_, ?_⟩
  · rw [Chip.sid, h0, h1]; exact ext_sid id
  · rw [Chip.eid, h1, h2, h3]; exact ext_eid id
  · rw [Chip.exide, h1]; simp

private theorem passes_std {c : Chip} {m a : Nat} {id mask : BitVec 32} (hm : Has c m (MASK mask)) (ha : Has c a (FILTER id)) (f : Frame) :
    c.passes m a f = true ↔ f.extended = false ∧ ∀ j, j < 11 → mask.getLsbD j = true → f.base.getLsbD j = id.getLsbD j := by
  obtain ⟨m1, m2, _⟩ := has_std (id := mask) hm
  obtain ⟨a1, a2, a3⟩ := has_std ha
  rw [Chip.passes, m1, m2, a1, a2, a3]
  cases f.extended
  · simp only [beq_self_eq_true, Bool.true_and, Bool.and_eq_true, beq_iff_eq, true_and, Bool.false_eq_true, if_false]
    rw [masked_bits]
    constructor
    · rintro ⟨h, _⟩ j hj hb
      have := h j hj (by simp [hj, hb])
      simpa [hj] using this
    · intro h
      refine ⟨fun j hj hb => ?_, ?_⟩
      · simp [hj] at hb ⊢; exact h j hj hb
      · simp
  · simp

private theorem passes_ext {c : Chip} {m a : Nat} {id mask : BitVec 32} (hm : Has c m (MASK_EXTENDED mask)) (ha : Has c a (FILTER_EXTENDED id)) (f : Frame) :
    c.passes m a f = true ↔ f.extended = true ∧ ∀ j, j < 29 → mask.getLsbD j = true → f.id29.getLsbD j = id.getLsbD j := by
  obtain ⟨m1, m2, _⟩ := has_ext (id := mask) hm
  obtain ⟨a1, a2, a3⟩ := has_ext ha
  rw [Chip.passes, m1, m2, a1, a2, a3]
  cases f.extended
  · simp
  · simp only [beq_self_eq_true, Bool.true_and, Bool.and_eq_true, beq_iff_eq, true_and, if_true]
    rw [masked_bits, masked_bits]
    constructor
    · rintro ⟨h1, h2⟩ j hj hb
      rw [Frame.id29, BitVec.getLsbD_append]
      by_cases h18 : j < 18
      · have := h2 j h18 (by simp [h18, hb])
        simpa [h18] using this
      · have := h1 (j - 18) (by omega) (by
          simp [show j - 18 < 11 by omega, show 18 + (j - 18) = j by omega, hb])
        simp only [BitVec.getLsbD_extractLsb', show j - 18 < 11 by omega, show 18 + (j - 18) = j by omega, decide_true, Bool.true_and] at this
        simp [h18, this]
    · intro h
      refine ⟨fun j hj hb => ?_, fun j hj hb => ?_⟩
      · simp only [BitVec.getLsbD_extractLsb', hj, decide_true, Bool.true_and] at hb ⊢
        have := h (18 + j) (by omega) hb
        rw [Frame.id29, BitVec.getLsbD_append] at this
        simpa using this
      · simp only [BitVec.getLsbD_setWidth, hj, decide_true, Bool.true_and] at hb ⊢
        have := h j (by omega) hb
        rw [Frame.id29, BitVec.getLsbD_append] at this
        simpa [hj] using this

private theorem passes_group {c : Chip} {n : Nat} {m a : Nat} (i : Fin n) (g : Group n) (hm : Has c m (maskBytes g)) (ha : Has c a (filterBytes i g)) (f : Frame) :
    c.passes m a f = true ↔ match g with
      | .standard filters mask => f.extended = false ∧ ∀ j, j < 11 → mask.getLsbD j = true → f.base.getLsbD j = (filters i).getLsbD j
      | .extended filters mask => f.extended = true ∧ ∀ j, j < 29 → mask.getLsbD j = true → f.id29.getLsbD j = (filters i).getLsbD j := by
  cases g with
  | standard filters mask => exact passes_std hm ha f
  | extended filters mask => exact passes_ext hm ha f

/-- **C176.** With a table built by the macros, one group of two filters and one of four, each for standard or for extended
messages, the buffers take exactly the frames the groups ask for, whatever their data and however long the controller takes to change
its mode.  Then normal operation is asked for, and no other register is changed. -/
theorem C176_filters (c : Chip) (polls : Nat) (g0 : Group 2) (g1 : Group 4) :
    ∃ es, setFilter polls (table g0 g1) = some es ∧
      (let r := c.run es
      (∀ f, r.buffer0 f = true ↔ g0.wants f) ∧ (∀ f, r.buffer1 f = true ↔ g1.wants f) ∧
      (r.step .modeReached).mode = 0#3 ∧
      ∀ a, filterRegister a = false → a ≠ 0x60 → a ≠ 0x70 → a ≠ 0x0f → r.reg a = c.reg a) := by
  have l1 : ∀ {n : Nat} (i : Fin n) (g : Group n), (filterBytes i g).length = 4 := by
    intro n i g; obtain ⟨_, _, _, _, h⟩ := filter_len i g; rw [h]; rfl
  have l2 : ∀ {n : Nat} (g : Group n), (maskBytes g).length = 4 := by
    intro n g; obtain ⟨_, _, _, _, h⟩ := mask_len g; rw [h]; rfl
  obtain ⟨es, he, h60, h70, hm, k0, k1, k2, k3, k4, k5, k6, k7, ho⟩ := after c polls (filterBytes 0 g0) (filterBytes 1 g0) (filterBytes 0 g1) (filterBytes 1 g1)
    (filterBytes 2 g1) (filterBytes 3 g1) (maskBytes g0) (maskBytes g1)
    ⟨l1 _ _, l1 _ _, l1 _ _, l1 _ _, l1 _ _, l1 _ _, l2 _, l2 _⟩
  refine ⟨es, he, ?_⟩
  intro r
  refine ⟨fun f => ?_, fun f => ?_, hm, ho⟩
  · have p0 := passes_group 0 g0 k6 k0 f
    have p1 := passes_group 1 g0 k6 k1 f
    rw [Chip.buffer0, show r.reg 0x60 = 0x04#8 from h60]
    rw [show ((0x04#8).extractLsb' 5 2 == 3#2) = false from rfl, Bool.false_or, Bool.or_eq_true, show r.passes 0x20 0x00 f = true ↔ _ from p0,
      show r.passes 0x20 0x04 f = true ↔ _ from p1]
    cases g0 <;> simp only [Group.wants, Fin.exists_fin_two, ← and_or_left]
  · have p0 := passes_group 0 g1 k7 k2 f
    have p1 := passes_group 1 g1 k7 k3 f
    have p2 := passes_group 2 g1 k7 k4 f
    have p3 := passes_group 3 g1 k7 k5 f
    rw [Chip.buffer1, show r.reg 0x70 = 0#8 from h70]
    rw [show ((0#8).extractLsb' 5 2 == 3#2) = false from rfl, Bool.false_or, Bool.or_eq_true, Bool.or_eq_true, Bool.or_eq_true,
      show r.passes 0x24 0x08 f = true ↔ _ from p0, show r.passes 0x24 0x10 f = true ↔ _ from p1, show r.passes 0x24 0x14 f = true ↔ _ from p2,
      show r.passes 0x24 0x18 f = true ↔ _ from p3]
    have e4 : ∀ p : Fin 4 → Prop, (∃ i, p i) ↔ ((p 0 ∨ p 1) ∨ p 2) ∨ p 3 := by
      intro p
      constructor
      · rintro ⟨i, hi⟩
        match i, hi with
        | 0, hi => exact .inl (.inl (.inl hi))
        | 1, hi => exact .inl (.inl (.inr hi))
        | 2, hi => exact .inl (.inr hi)
        | 3, hi => exact .inr hi
      · rintro (((h | h) | h) | h) <;> exact ⟨_, h⟩
    cases g1 <;> simp only [Group.wants, e4, ← and_or_left]

/-- A group for the standard identifiers 0x120 to 0x12f and 0x200 to 0x20f. -/
example : (Group.standard ![0x120, 0x200] 0x7f0 : Group 2).wants ⟨false, 0x12a, 0, 0xffff⟩ :=
  ⟨rfl, 0, by decide⟩

/-- **C176, refuted**: `setFilter` leaves the mode that was set.  A controller that was told to listen only takes part in the traffic
once the filters are set. -/
theorem C176_mode_counterexample :
    let c : Chip := ⟨fun a => if a = 0x0f then 0x60#8 else 0#8, 3#3⟩
    (setFilter 0 (table (.extended (fun _ => 0) 0) (.extended (fun _ => 0) 0))).map (fun es => ((c.run es).step .modeReached).mode) = some 0#3 := by
  decide +kernel

/-- **C176, refuted**: the macros for standard messages do not bracket their argument, and `MCP2515_FILTER(0x400 | 0x23)` lets
0x023 pass instead of 0x423. -/
theorem C176_macro_counterexample :
    FILTER_or 0x400 0x23 ≠ FILTER (0x400 ||| 0x23) ∧
    (let t := FILTER_or 0x400 0x23 ++ FILTER_or 0x400 0x23 ++ FILTER 0 ++ FILTER 0 ++ FILTER 0 ++ FILTER 0 ++ MASK 0x7ff ++ MASK 0x7ff
    (setFilter 0 t).map (fun es =>
      let r := (Chip.mk (fun _ => 0#8) 0#3).run es
      (r.buffer0 ⟨false, 0x423, 0, 0⟩, r.buffer0 ⟨false, 0x023, 0, 0⟩)) = some (false, true)) := by
  constructor
  · decide +kernel
  · decide +kernel

end Props.Mcp2515Filter
