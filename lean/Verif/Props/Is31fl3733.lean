import Verif.Model.Is31fl3733

set_option autoImplicit false

namespace Props.Is31fl3733
open Model.Is31fl3733

/-! ### Specification -/

inductive Op where
  | enable (x y : Nat)
  | enableAll
  | disable (x y : Nat)
  | disableAll
  | setPwm (x y : Nat) (v : BitVec 8)
  | setAllPwm (v : BitVec 8)
  | writeOnOff (b : Bus)
  | writePwm (b : Bus)
  | writeRegister (b : Bus) (page addr : Nat) (v : BitVec 8)
  | reset (b : Bus)

def step (s : State) : Op → State
  | .enable x y => (enable s x y).1
  | .enableAll => enableAll s
  | .disable x y => (disable s x y).1
  | .disableAll => disableAll s
  | .setPwm x y v => (setPwm s x y v).1
  | .setAllPwm v => setAllPwm s v
  | .writeOnOff b => (writeOnOff s b).1
  | .writePwm b => (writePwm s b).1
  | .writeRegister b p a v => (writeRegister s b p a v).1
  | .reset b => (reset s b none).1

/-- Registers with a page: four pages of at most 0xF0 registers. -/
def valid : Op → Prop
  | .writeRegister _ p a _ => p < 4 ∧ a < 0xF0
  | _ => True

def run (s : State) (ops : List Op) : State := ops.foldl step s

/-- Whether an LED is to be on: the last call counts. -/
def lit (x y : Nat) (was : Bool) : List Op → Bool
  | [] => was
  | .enable x' y' :: r => lit x y (if x' = x ∧ y' = y then true else was) r
  | .disable x' y' :: r => lit x y (if x' = x ∧ y' = y then false else was) r
  | .enableAll :: r => lit x y true r
  | .disableAll :: r => lit x y false r
  | _ :: r => lit x y was r

/-- The brightness of an LED: the last call counts. -/
def level (x y : Nat) (was : BitVec 8) : List Op → BitVec 8
  | [] => was
  | .setPwm x' y' v :: r => level x y (if x' = x ∧ y' = y then v else was) r
  | .setAllPwm v :: r => level x y v r
  | _ :: r => level x y was r

/-! ### The page -/

def Inv (s : State) : Prop := (s.currentPage = 0xff ∨ s.chip.page = s.currentPage) ∧ (s.currentPage = 0xff ∨ s.currentPage < 4)

theorem setPage_spec (s : State) (b : Bus) (page : Nat) (hp : page < 4) (h : Inv s) :
    Inv (setPage s b page).1 ∧ (setPage s b page).1.chip.regs = s.chip.regs ∧
    ((setPage s b page).2 = true → (setPage s b page).1.chip.page = page) ∧
    (setPage s b page).1.ledOnOff = s.ledOnOff ∧ (setPage s b page).1.ledPwm = s.ledPwm := by
  unfold setPage
  by_cases e : page = s.currentPage
  · have ne : ¬ (page ≠ s.currentPage) := fun q => q e
    rw [if_neg ne]
    refine ⟨h, rfl, ?_, rfl, rfl⟩
    intro _
    rcases h.1 with q | q
    · omega
    · simp only; omega
  · rw [if_pos e]
    have p8 : (BitVec.ofNat 8 page).toNat = page := by rw [BitVec.toNat_ofNat]; omega
    have pm : page % 256 = page := by omega
    cases hl : b.lock <;> cases hc : b.command
    · simpa [transact, hl] using h
    · simpa [transact, hl] using h
    · simpa [transact, hl, hc, chipWrite, Inv] using h
    · simp [transact, chipWrite, Inv, pm]
      omega

theorem writeAt (s : State) (b : Bus) (page addr : Nat) (bytes : State → List (BitVec 8)) (hp : page < 4) (ha : addr < 0xF0) (h : Inv s)
    (hb : ∀ s', s'.ledOnOff = s.ledOnOff → s'.ledPwm = s.ledPwm → bytes s' = bytes s) :
    let r := if (setPage s b page).2 = false then ((setPage s b page).1, false) else transact (setPage s b page).1 b.data addr (bytes (setPage s b page).1)
    Inv r.1 ∧ r.1.ledOnOff = s.ledOnOff ∧ r.1.ledPwm = s.ledPwm ∧
    (r.2 = false → r.1.chip.regs = s.chip.regs) ∧
    (r.2 = true → ∀ p a, r.1.chip.regs p a = if p = page ∧ addr ≤ a then ((bytes s)[a - addr]?).getD (s.chip.regs p a) else s.chip.regs p a) := by
  obtain ⟨i, rg, pg, on, pw⟩ := setPage_spec s b page hp h
  intro r
  by_cases f : (setPage s b page).2 = false
  · have re : r = ((setPage s b page).1, false) := if_pos f
    rw [re]
    exact ⟨i, on, pw, fun _ => rg, by simp⟩
  · have re : r = transact (setPage s b page).1 b.data addr (bytes (setPage s b page).1) := if_neg f
    have t : (setPage s b page).2 = true := by simpa using f
    rw [re]
    cases hd : b.data with
    | false =>
      simp only [transact]
      exact ⟨i, on, pw, fun _ => rg, by simp⟩
    | true =>
      have n1 : ¬ addr = 0xFE := by omega
      have n2 : ¬ addr = 0xFD := by omega
      simp only [transact, if_true, chipWrite, n1, n2, if_false]
      refine ⟨i, on, pw, by simp, ?_⟩
      intro _ p a
      simp only [pg t, rg, hb _ on pw]

theorem step_inv (s : State) (o : Op) (h : Inv s) (v : valid o) : Inv (step s o) := by
  cases o with
  | enable x y => simp only [step, enable]; split <;> exact h
  | enableAll => exact h
  | disable x y => simp only [step, disable]; split <;> exact h
  | disableAll => exact h
  | setPwm x y v => simp only [step, setPwm]; split <;> exact h
  | setAllPwm v => exact h
  | writeOnOff b => exact (writeAt s b 0 0 (fun s => onOffBytes s.ledOnOff) (by omega) (by omega) h (by intro s' e _; simp only [e])).1
  | writePwm b => exact (writeAt s b 1 0 (fun s => pwmBytes s.ledPwm) (by omega) (by omega) h (by intro s' _ e; simp only [e])).1
  | writeRegister b p a x => exact (writeAt s b p a (fun _ => [x]) v.1 v.2 h (by intro _ _ _; rfl)).1
  | reset b =>
    obtain ⟨i, _⟩ := setPage_spec s b 3 (by omega) h
    simp only [step, reset]
    split
    · exact i
    · split
      · exact i
      · exact i

theorem run_inv (ops : List Op) : ∀ s, Inv s → (∀ o ∈ ops, valid o) → Inv (run s ops) := by
  induction ops with
  | nil => intro s h _; exact h
  | cons o ops ih =>
    intro s h v
    exact ih _ (step_inv s o h (v o (by simp))) (fun o' m => v o' (by simp [m]))

theorem init_inv (chip : Chip) (on : Nat → BitVec 16) (pwm : Nat → Nat → BitVec 8) : Inv (init chip on pwm) := ⟨Or.inl rfl, Or.inl rfl⟩

/-- C362: after all sequences of calls with all failures of transactions: `writeRegister()` changes exactly the register in its page if it returns `true`, and no
register otherwise (for a chip that keeps its page at a reset). -/
theorem C362_registers_partial (chip : Chip) (on : Nat → BitVec 16) (pwm : Nat → Nat → BitVec 8) (ops : List Op) (hv : ∀ o ∈ ops, valid o)
    (b : Bus) (page addr : Nat) (v : BitVec 8) (hp : page < 4) (ha : addr < 0xF0) :
    let s := run (init chip on pwm) ops
    let r := writeRegister s b page addr v
    (r.2 = true → ∀ p a, r.1.chip.regs p a = if p = page ∧ a = addr then v else s.chip.regs p a) ∧
    (r.2 = false → r.1.chip.regs = s.chip.regs) ∧
    (b.lock = true → b.command = true → b.data = true → r.2 = true) := by
  intro s r
  have i := run_inv ops _ (init_inv chip on pwm) hv
  obtain ⟨_, _, _, w1, w2⟩ := writeAt s b page addr (fun _ => [v]) hp ha i (by intro _ _ _; rfl)
  refine ⟨?_, w1, ?_⟩
  · intro t p a
    have wa := w2 t p a
    change r.1.chip.regs p a = _ at wa
    rw [wa]
    by_cases e : p = page ∧ a = addr
    · rw [if_pos e, if_pos ⟨e.1, by omega⟩, e.2]
      simp
    · rw [if_neg e]
      by_cases c : p = page ∧ addr ≤ a
      · rw [if_pos c]
        have : ¬ a = addr := fun q => e ⟨c.1, q⟩
        rw [List.getElem?_eq_none (by simp only [List.length_cons, List.length_nil]; omega)]
        rfl
      · rw [if_neg c]
  · intro h1 h2 h3
    change (writeRegister s b page addr v).2 = true
    unfold writeRegister setPage transact
    rw [h1, h2, h3]
    by_cases e : page = s.currentPage
    · simp [e]
    · simp [e]

theorem bit_or (w : BitVec 16) (y y' : Nat) (hy : y < 16) (hy' : y' < 16) : (w ||| (1#16 <<< y')).getLsbD y = if y' = y then true else w.getLsbD y := by
  have table : ∀ y' < 16, ∀ y < 16, (1#16 <<< y').getLsbD y = decide (y' = y) := by decide
  rw [BitVec.getLsbD_or, table y' hy' y hy]
  by_cases e : y' = y <;> simp [e]

theorem bit_and (w : BitVec 16) (y y' : Nat) (hy : y < 16) (hy' : y' < 16) : (w &&& ~~~(1#16 <<< y')).getLsbD y = if y' = y then false else w.getLsbD y := by
  have table : ∀ y' < 16, ∀ y < 16, (~~~(1#16 <<< y')).getLsbD y = !decide (y' = y) := by decide
  rw [BitVec.getLsbD_and, table y' hy' y hy]
  by_cases e : y' = y <;> simp [e]

theorem memory (ops : List Op) (x y : Nat) (hx : x < 12) (hy : y < 16) : ∀ s, Inv s → (∀ o ∈ ops, valid o) →
    ((run s ops).ledOnOff x).getLsbD y = lit x y ((s.ledOnOff x).getLsbD y) ops ∧ (run s ops).ledPwm x y = level x y (s.ledPwm x y) ops := by
  induction ops with
  | nil => intro s _ _; exact ⟨rfl, rfl⟩
  | cons o ops ih =>
    intro s h hv
    have ih := ih (step s o) (step_inv s o h (hv o (by simp))) (fun o' m => hv o' (by simp [m]))
    have hvo := hv o (by simp)
    change ((run (step s o) ops).ledOnOff x).getLsbD y = _ ∧ (run (step s o) ops).ledPwm x y = _
    rw [ih.1, ih.2]
    cases o with
    | enable x' y' =>
      simp only [lit, level, step, enable]
      by_cases c : x' < SizeX ∧ y' < SizeY
      · rw [if_pos c]
        refine ⟨?_, rfl⟩
        by_cases e : x = x'
        · subst e
          simp only [Function.update_self]
          rw [bit_or _ _ _ hy c.2]
          simp
        · have e' : ¬ x' = x := fun q => e q.symm
          simp only [Function.update_of_ne e]
          simp [e']
      · rw [if_neg c]
        have c' : ¬ (x' < 12 ∧ y' < 16) := c
        have e : ¬ (x' = x ∧ y' = y) := by omega
        rw [if_neg e]
        exact ⟨rfl, rfl⟩
    | enableAll =>
      have table : ∀ y < 16, (0xffff#16).getLsbD y = true := by decide
      simp only [lit, level, step, enableAll]
      rw [table y hy]
      simp
    | disable x' y' =>
      simp only [lit, level, step, disable]
      by_cases c : x' < SizeX ∧ y' < SizeY
      · rw [if_pos c]
        refine ⟨?_, rfl⟩
        by_cases e : x = x'
        · subst e
          simp only [Function.update_self]
          rw [bit_and _ _ _ hy c.2]
          simp
        · have e' : ¬ x' = x := fun q => e q.symm
          simp only [Function.update_of_ne e]
          simp [e']
      · rw [if_neg c]
        have c' : ¬ (x' < 12 ∧ y' < 16) := c
        have e : ¬ (x' = x ∧ y' = y) := by omega
        rw [if_neg e]
        exact ⟨rfl, rfl⟩
    | disableAll => simp [lit, level, step, disableAll]
    | setPwm x' y' v =>
      simp only [lit, level, step, setPwm]
      by_cases c : x' < SizeX ∧ y' < SizeY
      · rw [if_pos c]
        refine ⟨rfl, ?_⟩
        by_cases e : x = x'
        · subst e
          simp only [Function.update_self]
          by_cases f : y = y'
          · subst f; simp
          · have f' : ¬ y' = y := fun q => f q.symm
            simp [Function.update_of_ne f, f']
        · have e' : ¬ x' = x := fun q => e q.symm
          simp only [Function.update_of_ne e]
          simp [e']
      · rw [if_neg c]
        have c' : ¬ (x' < 12 ∧ y' < 16) := c
        have e : ¬ (x' = x ∧ y' = y) := by omega
        rw [if_neg e]
        exact ⟨rfl, rfl⟩
    | setAllPwm v => exact ⟨rfl, rfl⟩
    | writeOnOff b =>
      obtain ⟨_, a, c, _⟩ := writeAt s b 0 0 (fun s => onOffBytes s.ledOnOff) (by omega) (by omega) h (by intro s' e _; simp only [e])
      simp only [lit, level]
      exact ⟨congrArg (fun f => lit x y ((f x).getLsbD y) ops) a, congrArg (fun f => level x y (f x y) ops) c⟩
    | writePwm b =>
      obtain ⟨_, a, c, _⟩ := writeAt s b 1 0 (fun s => pwmBytes s.ledPwm) (by omega) (by omega) h (by intro s' _ e; simp only [e])
      simp only [lit, level]
      exact ⟨congrArg (fun f => lit x y ((f x).getLsbD y) ops) a, congrArg (fun f => level x y (f x y) ops) c⟩
    | writeRegister b p ad v =>
      obtain ⟨_, a, c, _⟩ := writeAt s b p ad (fun _ => [v]) hvo.1 hvo.2 h (by intro _ _ _; rfl)
      simp only [lit, level]
      exact ⟨congrArg (fun f => lit x y ((f x).getLsbD y) ops) a, congrArg (fun f => level x y (f x y) ops) c⟩
    | reset b =>
      obtain ⟨_, _, _, a, c⟩ := setPage_spec s b 3 (by omega) h
      have e : (step s (.reset b)).ledOnOff = s.ledOnOff ∧ (step s (.reset b)).ledPwm = s.ledPwm := by
        simp only [step, reset]
        split
        · exact ⟨a, c⟩
        · split
          · exact ⟨a, c⟩
          · exact ⟨a, c⟩
      simp only [lit, level]
      rw [e.1, e.2]
      exact ⟨rfl, rfl⟩

/-- C363: after all sequences of calls with all failures: if `writeOnOff()` returns `true`, each LED is on in the chip exactly if the last call for it was
to enable it; if `writePwm()` does, each LED has the brightness set last; nothing else in the chip is changed (for a chip that keeps its page at a reset). -/
theorem C363_leds_partial (chip : Chip) (on : Nat → BitVec 16) (pwm : Nat → Nat → BitVec 8) (ops : List Op) (hv : ∀ o ∈ ops, valid o) (b : Bus) :
    let s := run (init chip on pwm) ops
    ((writeOnOff s b).2 = true →
      (∀ x < 12, ∀ y < 16, ((writeOnOff s b).1.chip.regs 0 (2 * x + y / 8)).getLsbD (y % 8) = lit x y ((on x).getLsbD y) ops) ∧
      ∀ p a, ¬ (p = 0 ∧ a < 24) → (writeOnOff s b).1.chip.regs p a = s.chip.regs p a) ∧
    ((writePwm s b).2 = true →
      (∀ x < 12, ∀ y < 16, (writePwm s b).1.chip.regs 1 (16 * x + y) = level x y (pwm x y) ops) ∧
      ∀ p a, ¬ (p = 1 ∧ a < 192) → (writePwm s b).1.chip.regs p a = s.chip.regs p a) := by
  intro s
  have i0 := init_inv chip on pwm
  have i := run_inv ops _ i0 hv
  refine ⟨?_, ?_⟩
  · intro t
    obtain ⟨_, _, _, _, w⟩ := writeAt s b 0 0 (fun s => onOffBytes s.ledOnOff) (by omega) (by omega) i (by intro s' e _; simp only [e])
    have w := w t
    refine ⟨?_, ?_⟩
    · intro x hx y hy
      have m := (memory ops x y hx hy _ i0 hv).1
      have wa := w 0 (2 * x + y / 8)
      change (writeOnOff s b).1.chip.regs 0 (2 * x + y / 8) = _ at wa
      rw [wa, if_pos ⟨rfl, by omega⟩]
      have lt : 2 * x + y / 8 < 24 := by omega
      have d : (2 * x + y / 8) / 2 = x := by omega
      have e : (2 * x + y / 8) % 2 = y / 8 := by omega
      simp only [onOffBytes, Nat.sub_zero, List.getElem?_map, List.getElem?_range lt, Option.map_some, Option.getD_some, d, e]
      rw [BitVec.getLsbD_setWidth, BitVec.getLsbD_ushiftRight]
      have f : 8 * (y / 8) + y % 8 = y := by omega
      have g : y % 8 < 8 := by omega
      rw [f]
      simp only [g, decide_true, Bool.true_and]
      exact m
    · intro p a n
      have wa := w p a
      change (writeOnOff s b).1.chip.regs p a = _ at wa
      rw [wa]
      split
      next c =>
        have : 24 ≤ a := by omega
        rw [List.getElem?_eq_none (by simp [onOffBytes]; omega)]
        rfl
      next => rfl
  · intro t
    obtain ⟨_, _, _, _, w⟩ := writeAt s b 1 0 (fun s => pwmBytes s.ledPwm) (by omega) (by omega) i (by intro s' _ e; simp only [e])
    have w := w t
    refine ⟨?_, ?_⟩
    · intro x hx y hy
      have m := (memory ops x y hx hy _ i0 hv).2
      have wa := w 1 (16 * x + y)
      change (writePwm s b).1.chip.regs 1 (16 * x + y) = _ at wa
      rw [wa, if_pos ⟨rfl, by omega⟩]
      have lt : 16 * x + y < 192 := by omega
      have d : (16 * x + y) / 16 = x := by omega
      have e : (16 * x + y) % 16 = y := by omega
      simp only [pwmBytes, Nat.sub_zero, List.getElem?_map, List.getElem?_range lt, Option.map_some, Option.getD_some, d, e]
      exact m
    · intro p a n
      have wa := w p a
      change (writePwm s b).1.chip.regs p a = _ at wa
      rw [wa]
      split
      next c =>
        have : 192 ≤ a := by omega
        rw [List.getElem?_eq_none (by simp [pwmBytes]; omega)]
        rfl
      next => rfl

/-- A chip and a bus without failures. -/
def fresh : State := init ⟨0, false, fun _ _ => 0#8⟩ (fun _ => 0#16) (fun _ _ => 0#8)
def good : Bus := ⟨true, true, true⟩

/-- Case: two LEDs on after a failed attempt, with other pages used before. -/
example : let s := run fresh [.writeRegister good 3 1 0xff#8, .enable 2 9, .writeOnOff ⟨true, false, true⟩, .enable 0 0, .setPwm 11 15 7#8]
    (writeOnOff s good).1.chip.regs 0 5 = 2#8 ∧ (writeOnOff s good).1.chip.regs 0 0 = 1#8 ∧ (writeOnOff s good).2 = true ∧
    (writePwm s good).1.chip.regs 1 191 = 7#8 ∧ (writeOnOff s good).1.chip.regs 3 1 = 0xff#8 := by decide

/-- C362 (refuted for a chip that selects page 0 at a reset): `reset()` does not forget the page, so the next write to a register of page 3 changes the register of page 0
with the same address: the current is not set, but LEDs are switched on. -/
theorem C362_reset_counterexample :
    let s := (reset fresh good (some 0)).1
    let r := writeRegister s good 3 1 0xff#8
    r.2 = true ∧ r.1.chip.regs 3 1 = 0#8 ∧ r.1.chip.regs 0 1 = 0xff#8 := by decide

end Props.Is31fl3733
