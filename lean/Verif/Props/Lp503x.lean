import Verif.Model.Lp503x
/-!
C364, C365: the LED driver LP5030/LP5036.
-/

set_option autoImplicit false

namespace Props.Lp503x
open Model.Lp503x

/-! ### Specification: what the user asked for -/

/-- The settings as the user thinks of them. -/
structure Leds where
  on : Bool
  config : BitVec 8
  out : Nat → BitVec 8
  group : Nat → BitVec 8
  inBank : Nat → Bool
  bank : Nat → BitVec 8
  bankBright : BitVec 8

/-- After power-on and reset. -/
def fresh : Leds := ⟨false, 0x34#8, fun _ => 0#8, fun _ => 0xff#8, fun _ => false, fun _ => 0#8, 0xff#8⟩

/-- Whether a call is acceptable and its transactions succeed. -/
def succeeds (n : Nat) : Op → Bool
  | .initialise a b => a && b
  | .enable ok => ok
  | .disable ok => ok
  | .configure ok _ => ok
  | .channel ok ch _ => ok && decide (ch.toNat < n)
  | .channels ok s vs => ok && decide (vs ≠ []) && decide (s.toNat + vs.length ≤ n)
  | .group ok i _ => ok && decide (3 * i.toNat + 3 ≤ n)
  | .bankMode ok _ => ok
  | .bankA ok _ => ok
  | .bankB ok _ => ok
  | .bankC ok _ => ok
  | .bankBrightness ok _ => ok

/-- What a successful call asks for. -/
def apply (s : Leds) : Op → Leds
  | .initialise _ _ => { fresh with config := 0x36#8 }
  | .enable _ => { s with on := true }
  | .disable _ => { s with on := false }
  | .configure _ c => { s with config := c }
  | .channel _ ch v => { s with out := fun k => if k = ch.toNat then v else s.out k }
  | .channels _ a vs => { s with out := fun k => if a.toNat ≤ k then (vs[k - a.toNat]?).getD (s.out k) else s.out k }
  | .group _ i v => { s with group := fun k => if k = i.toNat then v else s.group k }
  | .bankMode _ m => { s with inBank := fun k => m.getLsbD k }
  | .bankA _ v => { s with bank := fun k => if k = 0 then v else s.bank k }
  | .bankB _ v => { s with bank := fun k => if k = 1 then v else s.bank k }
  | .bankC _ v => { s with bank := fun k => if k = 2 then v else s.bank k }
  | .bankBrightness _ v => { s with bankBright := v }

/-- A call that fails changes nothing, except that `initialize` may have reset the chip. -/
def specStep (n : Nat) (s : Leds) (op : Op) : Leds :=
  if succeeds n op then apply s op
  else match op with
    | .initialise true _ => fresh
    | _ => s

def specRun (n : Nat) (s : Leds) (ops : List Op) : Leds := ops.foldl (specStep n) s

/-- What an output should show. -/
def wanted (s : Leds) (ch : Nat) : Option (BitVec 8 × BitVec 8) :=
  if s.on = false then none
  else if s.inBank (ch / 3) then some (s.bank (ch % 3), s.bankBright)
  else some (s.out ch, s.group (ch / 3))

/-! ### The registers represent the settings -/

structure Rep (r : Regs) (s : Leds) : Prop where
  on : r 0x00 = if s.on then 0x40#8 else 0#8
  config : r 0x01 = s.config ||| 0x08#8
  out : ∀ ch, ch < 36 → r (0x14 + ch) = s.out ch
  group : ∀ i, i < 12 → r (0x08 + i) = s.group i
  lo : ∀ i, i < 8 → (r 0x02).getLsbD i = s.inBank i
  hi : ∀ i, i < 4 → (r 0x03).getLsbD i = s.inBank (8 + i)
  bank : ∀ k, k < 3 → r (0x05 + k) = s.bank k
  bankBright : r 0x04 = s.bankBright

theorem rep_auto {r : Regs} {s : Leds} (h : Rep r s) : (r 0x01).getLsbD 3 = true := by
  rw [h.config]; simp

theorem chipWrite_one (r : Regs) (a : Nat) (v : BitVec 8) : chipWrite r a [v] = writeByte r a v := by
  simp [chipWrite]

theorem chipWrite_many (vs : List (BitVec 8)) : ∀ (r : Regs) (a : Nat), (r 0x01).getLsbD 3 = true → 2 ≤ a → a + vs.length ≤ 0x38 →
    chipWrite r a vs = fun k => if a ≤ k then (vs[k - a]?).getD (r k) else r k := by
  induction vs with
  | nil => intro r a _ _ _; funext k; simp [chipWrite]
  | cons v vs ih =>
    intro r a hr ha hl
    simp only [List.length_cons] at hl
    have hw : writeByte r a v = Function.update r a v := by unfold writeByte; rw [if_neg (by omega)]
    have h1 : (Function.update r a v) 0x01 = r 0x01 := Function.update_of_ne (by omega) _ _
    rw [chipWrite, if_pos hr, hw, ih _ _ (by rw [h1]; exact hr) (by omega) (by omega)]
    funext k
    by_cases hk : a = k
    · subst hk; rw [if_neg (by omega)]; simp
    · by_cases hlt : a ≤ k
      · obtain ⟨d, rfl⟩ : ∃ d, k = a + 1 + d := ⟨k - a - 1, by omega⟩
        have e1 : a + 1 + d - (a + 1) = d := by omega
        have e2 : a + 1 + d - a = d + 1 := by omega
        rw [if_pos (by omega), if_pos hlt, e1, e2, Function.update_of_ne (by omega)]
        simp
      · rw [if_neg (by omega), if_neg hlt, Function.update_of_ne (by omega)]

theorem rep_defaults : Rep defaults fresh := by
  constructor
  · decide
  · decide
  · intro ch h; unfold defaults fresh; simp only; rw [if_neg (by omega), if_neg (by omega), if_neg (by omega)]
  · intro i h; unfold defaults fresh; simp only; rw [if_neg (by omega), if_neg (by omega), if_pos (by omega)]
  · intro i h; simp [defaults, fresh]
  · intro i h; simp [defaults, fresh]
  · intro k h; unfold defaults fresh; simp only; rw [if_neg (by omega), if_neg (by omega), if_neg (by omega)]
  · decide

theorem rep_config {r : Regs} {s : Leds} (h : Rep r s) (c : BitVec 8) :
    Rep (Function.update r 0x01 (c ||| 0x08#8)) { s with config := c } := by
  have ne : ∀ k, k ≠ 0x01 → Function.update r 0x01 (c ||| 0x08#8) k = r k := fun k hk => Function.update_of_ne hk _ _
  constructor
  · rw [ne _ (by omega)]; exact h.on
  · simp
  · intro k hk; rw [ne _ (by omega)]; exact h.out k hk
  · intro k hk; rw [ne _ (by omega)]; exact h.group k hk
  · intro k hk; rw [ne _ (by omega)]; exact h.lo k hk
  · intro k hk; rw [ne _ (by omega)]; exact h.hi k hk
  · intro k hk; rw [ne _ (by omega)]; exact h.bank k hk
  · rw [ne _ (by omega)]; exact h.bankBright

theorem rep_on {r : Regs} {s : Leds} (h : Rep r s) (b : Bool) :
    Rep (Function.update r 0x00 (if b then 0x40#8 else 0#8)) { s with on := b } := by
  have ne : ∀ k, k ≠ 0x00 → Function.update r 0x00 (if b then 0x40#8 else 0#8) k = r k := fun k hk => Function.update_of_ne hk _ _
  constructor
  · simp
  · rw [ne _ (by omega)]; exact h.config
  · intro k hk; rw [ne _ (by omega)]; exact h.out k hk
  · intro k hk; rw [ne _ (by omega)]; exact h.group k hk
  · intro k hk; rw [ne _ (by omega)]; exact h.lo k hk
  · intro k hk; rw [ne _ (by omega)]; exact h.hi k hk
  · intro k hk; rw [ne _ (by omega)]; exact h.bank k hk
  · rw [ne _ (by omega)]; exact h.bankBright

theorem rep_bankBright {r : Regs} {s : Leds} (h : Rep r s) (v : BitVec 8) :
    Rep (Function.update r 0x04 v) { s with bankBright := v } := by
  have ne : ∀ k, k ≠ 0x04 → Function.update r 0x04 v k = r k := fun k hk => Function.update_of_ne hk _ _
  constructor
  · rw [ne _ (by omega)]; exact h.on
  · rw [ne _ (by omega)]; exact h.config
  · intro k hk; rw [ne _ (by omega)]; exact h.out k hk
  · intro k hk; rw [ne _ (by omega)]; exact h.group k hk
  · intro k hk; rw [ne _ (by omega)]; exact h.lo k hk
  · intro k hk; rw [ne _ (by omega)]; exact h.hi k hk
  · intro k hk; rw [ne _ (by omega)]; exact h.bank k hk
  · simp

theorem rep_bank {r : Regs} {s : Leds} (h : Rep r s) (j : Nat) (hj : j < 3) (v : BitVec 8) :
    Rep (Function.update r (0x05 + j) v) { s with bank := fun k => if k = j then v else s.bank k } := by
  have ne : ∀ k, k ≠ 0x05 + j → Function.update r (0x05 + j) v k = r k := fun k hk => Function.update_of_ne hk _ _
  constructor
  · rw [ne _ (by omega)]; exact h.on
  · rw [ne _ (by omega)]; exact h.config
  · intro k hk; rw [ne _ (by omega)]; exact h.out k hk
  · intro k hk; rw [ne _ (by omega)]; exact h.group k hk
  · intro k hk; rw [ne _ (by omega)]; exact h.lo k hk
  · intro k hk; rw [ne _ (by omega)]; exact h.hi k hk
  · intro k hk
    by_cases e : k = j
    · subst e; simp
    · rw [ne _ (by omega)]; simp only; rw [if_neg e]; exact h.bank k hk
  · rw [ne _ (by omega)]; exact h.bankBright

theorem rep_group {r : Regs} {s : Leds} (h : Rep r s) (j : Nat) (hj : j < 12) (v : BitVec 8) :
    Rep (Function.update r (0x08 + j) v) { s with group := fun k => if k = j then v else s.group k } := by
  have ne : ∀ k, k ≠ 0x08 + j → Function.update r (0x08 + j) v k = r k := fun k hk => Function.update_of_ne hk _ _
  constructor
  · rw [ne _ (by omega)]; exact h.on
  · rw [ne _ (by omega)]; exact h.config
  · intro k hk; rw [ne _ (by omega)]; exact h.out k hk
  · intro k hk
    by_cases e : k = j
    · subst e; simp
    · rw [ne _ (by omega)]; simp only; rw [if_neg e]; exact h.group k hk
  · intro k hk; rw [ne _ (by omega)]; exact h.lo k hk
  · intro k hk; rw [ne _ (by omega)]; exact h.hi k hk
  · intro k hk; rw [ne _ (by omega)]; exact h.bank k hk
  · rw [ne _ (by omega)]; exact h.bankBright

theorem rep_out {r : Regs} {s : Leds} (h : Rep r s) (j : Nat) (hj : j < 36) (v : BitVec 8) :
    Rep (Function.update r (0x14 + j) v) { s with out := fun k => if k = j then v else s.out k } := by
  have ne : ∀ k, k ≠ 0x14 + j → Function.update r (0x14 + j) v k = r k := fun k hk => Function.update_of_ne hk _ _
  constructor
  · rw [ne _ (by omega)]; exact h.on
  · rw [ne _ (by omega)]; exact h.config
  · intro k hk
    by_cases e : k = j
    · subst e; simp
    · rw [ne _ (by omega)]; simp only; rw [if_neg e]; exact h.out k hk
  · intro k hk; rw [ne _ (by omega)]; exact h.group k hk
  · intro k hk; rw [ne _ (by omega)]; exact h.lo k hk
  · intro k hk; rw [ne _ (by omega)]; exact h.hi k hk
  · intro k hk; rw [ne _ (by omega)]; exact h.bank k hk
  · rw [ne _ (by omega)]; exact h.bankBright

theorem rep_outs {r : Regs} {s : Leds} (h : Rep r s) (a : Nat) (vs : List (BitVec 8)) (hl : a + vs.length ≤ 36) :
    Rep (chipWrite r (0x14 + a) vs) { s with out := fun k => if a ≤ k then (vs[k - a]?).getD (s.out k) else s.out k } := by
  rw [chipWrite_many vs r (0x14 + a) (rep_auto h) (by omega) (by omega)]
  constructor
  · simp only; rw [if_neg (by omega)]; exact h.on
  · simp only; rw [if_neg (by omega)]; exact h.config
  · intro k hk
    simp only
    have e : 0x14 + k - (0x14 + a) = k - a := by omega
    by_cases c : a ≤ k
    · rw [if_pos (by omega), if_pos c, e, h.out k hk]
    · rw [if_neg (by omega), if_neg c, h.out k hk]
  · intro k hk; simp only; rw [if_neg (by omega)]; exact h.group k hk
  · intro k hk; simp only; rw [if_neg (by omega)]; exact h.lo k hk
  · intro k hk; simp only; rw [if_neg (by omega)]; exact h.hi k hk
  · intro k hk; simp only; rw [if_neg (by omega)]; exact h.bank k hk
  · simp only; rw [if_neg (by omega)]; exact h.bankBright

theorem rep_mode {r : Regs} {s : Leds} (h : Rep r s) (m : BitVec 16) :
    Rep (chipWrite r 0x02 [(m &&& 0xff#16).setWidth 8, ((m &&& 0xf00#16) >>> 8).setWidth 8]) { s with inBank := fun k => m.getLsbD k } := by
  rw [chipWrite_many _ r 0x02 (rep_auto h) (by omega) (by simp)]
  have big : ∀ k, 4 ≤ k → ([(m &&& 0xff#16).setWidth 8, ((m &&& 0xf00#16) >>> 8).setWidth 8] : List (BitVec 8))[k - 2]? = none := by
    intro k hk; apply List.getElem?_eq_none; simp; omega
  constructor
  · simp only; rw [if_neg (by omega)]; exact h.on
  · simp only; rw [if_neg (by omega)]; exact h.config
  · intro k hk; simp only; rw [if_pos (by omega), big _ (by omega)]; exact h.out k hk
  · intro k hk; simp only; rw [if_pos (by omega), big _ (by omega)]; exact h.group k hk
  · intro k hk
    have : k = 0 ∨ k = 1 ∨ k = 2 ∨ k = 3 ∨ k = 4 ∨ k = 5 ∨ k = 6 ∨ k = 7 := by omega
    rcases this with rfl | rfl | rfl | rfl | rfl | rfl | rfl | rfl <;> simp
  · intro k hk
    have : k = 0 ∨ k = 1 ∨ k = 2 ∨ k = 3 := by omega
    rcases this with rfl | rfl | rfl | rfl <;> simp
  · intro k hk; simp only; rw [if_pos (by omega), big _ (by omega)]; exact h.bank k hk
  · simp only; rw [if_pos (by omega), big _ (by omega)]; exact h.bankBright

theorem byte_add (c : Nat) (x : BitVec 8) (n : Nat) (hx : x.toNat < n) (hn : c + n ≤ 256) : (BitVec.ofNat 8 c + x).toNat = c + x.toNat := by
  rw [BitVec.toNat_add, BitVec.toNat_ofNat]; omega

theorem write_rep {r : Regs} (ok : Bool) (a : Nat) (v : BitVec 8) (ha : a ≠ 0x38) :
    writeRegister r ok a v = if ok then (Function.update r a v, true) else (r, false) := by
  unfold writeRegister; rw [chipWrite_one, writeByte, if_neg ha]

/-- One call: the registers represent what was asked for, and the result says whether it succeeded. -/
theorem step_rep (n : Nat) (hn : n = 30 ∨ n = 36) (op : Op) {r : Regs} {s : Leds} (h : Rep r s) :
    Rep (step n r op).1 (specStep n s op) ∧ (step n r op).2 = succeeds n op := by
  cases op with
  | initialise a b =>
    cases a
    · simpa [step, initializeChip, writeRegister, specStep, succeeds] using h
    · have e : chipWrite r 0x38 [0xff#8] = defaults := by rw [chipWrite_one]; simp [writeByte]
      cases b
      · simpa [step, initializeChip, setConfiguration, writeRegister, specStep, succeeds, e] using rep_defaults
      · have := rep_config rep_defaults 0x36#8
        simpa [step, initializeChip, setConfiguration, writeRegister, specStep, succeeds, apply, e, chipWrite_one, writeByte] using this
  | enable ok =>
    cases ok
    · simpa [step, enable, writeRegister, specStep, succeeds] using h
    · have := rep_on h true
      simpa [step, enable, write_rep, specStep, succeeds, apply] using this
  | disable ok =>
    cases ok
    · simpa [step, disable, writeRegister, specStep, succeeds] using h
    · have := rep_on h false
      simpa [step, disable, write_rep, specStep, succeeds, apply] using this
  | configure ok c =>
    cases ok
    · simpa [step, setConfiguration, writeRegister, specStep, succeeds] using h
    · have := rep_config h c
      simpa [step, setConfiguration, write_rep, specStep, succeeds, apply] using this
  | channel ok ch v =>
    by_cases hc : ch.toNat < n
    · have e : (0x14#8 + ch).toNat = 0x14 + ch.toNat := byte_add 0x14 ch n hc (by omega)
      have e2 : step n r (.channel ok ch v) = if ok then (Function.update r (0x14 + ch.toNat) v, true) else (r, false) := by
        show setChannelBrightness n r ok ch v = _
        unfold setChannelBrightness
        simp only
        rw [if_neg (by omega), e, write_rep _ _ _ (by omega)]
      rw [e2]
      cases ok
      · simpa [specStep, succeeds] using h
      · have := rep_out h ch.toNat (by omega) v
        simpa [specStep, succeeds, apply, hc] using this
    · have e2 : step n r (.channel ok ch v) = (r, false) := by
        show setChannelBrightness n r ok ch v = _
        unfold setChannelBrightness
        simp only
        rw [if_pos (by omega)]
      rw [e2]
      simpa [specStep, succeeds, hc] using h
  | channels ok a vs =>
    by_cases hc : vs ≠ [] ∧ a.toNat + vs.length ≤ n
    · have hl : 0 < vs.length := List.length_pos_iff.mpr hc.1
      have e : (0x14#8 + a).toNat = 0x14 + a.toNat := byte_add 0x14 a n (by omega) (by omega)
      have e2 : step n r (.channels ok a vs) = if ok then (chipWrite r (0x14 + a.toNat) vs, true) else (r, false) := by
        show setChannelBrightnessValues n r ok a vs = _
        unfold setChannelBrightnessValues writeRegisters
        rw [if_neg (by omega), e, if_neg (by omega)]
      rw [e2]
      cases ok
      · simpa [specStep, succeeds] using h
      · have := rep_outs h a.toNat vs (by omega)
        simpa [specStep, succeeds, apply, hc.1, hc.2] using this
    · have e2 : step n r (.channels ok a vs) = (r, false) := by
        show setChannelBrightnessValues n r ok a vs = _
        unfold setChannelBrightnessValues
        rw [if_pos]
        by_cases hv : vs = []
        · left; simp [hv]
        · right; have : ¬ a.toNat + vs.length ≤ n := fun x => hc ⟨hv, x⟩
          omega
      have e3 : succeeds n (.channels ok a vs) = false := by
        simp only [succeeds, Bool.and_eq_false_iff, decide_eq_false_iff_not]
        by_cases hv : vs = []
        · left; right; simp [hv]
        · right; exact fun x => hc ⟨hv, x⟩
      rw [e2]
      simpa [specStep, e3] using h
  | group ok i v =>
    by_cases hc : 3 * i.toNat + 3 ≤ n
    · have e : (0x08#8 + i).toNat = 0x08 + i.toNat := byte_add 0x08 i 12 (by omega) (by omega)
      have e2 : step n r (.group ok i v) = if ok then (Function.update r (0x08 + i.toNat) v, true) else (r, false) := by
        show setLedGroupBrightness n r ok i v = _
        unfold setLedGroupBrightness
        simp only
        rw [if_neg (by omega), e, write_rep _ _ _ (by omega)]
      rw [e2]
      cases ok
      · simpa [specStep, succeeds] using h
      · have := rep_group h i.toNat (by omega) v
        simpa [specStep, succeeds, apply, hc] using this
    · have e2 : step n r (.group ok i v) = (r, false) := by
        show setLedGroupBrightness n r ok i v = _
        unfold setLedGroupBrightness
        simp only
        rw [if_pos (by omega)]
      rw [e2]
      simpa [specStep, succeeds, hc] using h
  | bankMode ok m =>
    cases ok
    · simpa [step, setBankModeEnabled, specStep, succeeds] using h
    · have := rep_mode h m
      simpa only [step, setBankModeEnabled, specStep, succeeds, apply, if_true, and_true] using this
  | bankA ok v =>
    cases ok
    · simpa [step, setBankABrightness, writeRegister, specStep, succeeds] using h
    · have := rep_bank h 0 (by omega) v
      simpa [step, setBankABrightness, write_rep, specStep, succeeds, apply] using this
  | bankB ok v =>
    cases ok
    · simpa [step, setBankBBrightness, writeRegister, specStep, succeeds] using h
    · have := rep_bank h 1 (by omega) v
      simpa [step, setBankBBrightness, write_rep, specStep, succeeds, apply] using this
  | bankC ok v =>
    cases ok
    · simpa [step, setBankCBrightness, writeRegister, specStep, succeeds] using h
    · have := rep_bank h 2 (by omega) v
      simpa [step, setBankCBrightness, write_rep, specStep, succeeds, apply] using this
  | bankBrightness ok v =>
    cases ok
    · simpa [step, setBankBrightness, writeRegister, specStep, succeeds] using h
    · have := rep_bankBright h v
      simpa [step, setBankBrightness, write_rep, specStep, succeeds, apply] using this

theorem run_rep (n : Nat) (hn : n = 30 ∨ n = 36) (ops : List Op) : ∀ {r : Regs} {s : Leds}, Rep r s →
    Rep (run n r ops).1 (specRun n s ops) ∧ (run n r ops).2 = ops.map (succeeds n) := by
  induction ops with
  | nil => intro r s h; exact ⟨h, rfl⟩
  | cons op ops ih =>
    intro r s h
    obtain ⟨h1, h2⟩ := step_rep n hn op h
    obtain ⟨h3, h4⟩ := ih h1
    refine ⟨h3, ?_⟩
    rw [run, h4, h2]; rfl

theorem rep_shown {r : Regs} {s : Leds} (h : Rep r s) (ch : Nat) (hch : ch < 36) : shown r ch = wanted s ch := by
  have hon : (r 0x00).getLsbD 6 = s.on := by rw [h.on]; cases s.on <;> simp
  have hb : (if ch / 3 < 8 then (r 0x02).getLsbD (ch / 3) else (r 0x03).getLsbD (ch / 3 - 8)) = s.inBank (ch / 3) := by
    by_cases c : ch / 3 < 8
    · rw [if_pos c, h.lo _ c]
    · rw [if_neg c, h.hi _ (by omega)]; congr 1; omega
  unfold shown wanted
  rw [hon, hb, h.bank _ (by omega), h.bankBright, h.out _ hch, h.group _ (by omega)]

/-- C364: after any calls from power-on, some of which may fail, every output of LP5030 and LP5036 shows what was asked for by
the calls that succeeded, and each call returns whether it succeeded. -/
theorem C364_leds (n : Nat) (hn : n = 30 ∨ n = 36) (ops : List Op) :
    (∀ ch, ch < n → shown (run n defaults ops).1 ch = wanted (specRun n fresh ops) ch)
    ∧ (run n defaults ops).2 = ops.map (succeeds n) := by
  obtain ⟨h1, h2⟩ := run_rep n hn ops rep_defaults
  exact ⟨fun ch hch => rep_shown h1 ch (by omega), h2⟩

example : shown (run 36 defaults [.initialise true true, .enable true, .channels true 34#8 [7#8, 9#8], .channel true 36#8 1#8,
    .channel false 35#8 1#8, .bankMode true 0x001#16, .bankB true 5#8]).1 35 = some (9#8, 255#8) := by decide +kernel
example : shown (run 36 defaults [.initialise true true, .enable true, .bankMode true 0x800#16, .bankC true 5#8]).1 35 = some (5#8, 255#8) := by
  decide +kernel
example : (run 30 defaults [.channels true 28#8 [7#8, 9#8, 3#8], .channels true 28#8 [7#8, 9#8], .channels true 0#8 []]).2
    = [false, true, false] := by decide +kernel

/-- C365: the addresses are incremented after any calls, whatever configuration was asked for; apart from this bit the
configuration is the one asked for last. -/
theorem C365_config (n : Nat) (hn : n = 30 ∨ n = 36) (ops : List Op) :
    ((run n defaults ops).1 0x01).getLsbD 3 = true
    ∧ ∀ i, i < 8 → i ≠ 3 → ((run n defaults ops).1 0x01).getLsbD i = (specRun n fresh ops).config.getLsbD i := by
  obtain ⟨h1, _⟩ := run_rep n hn ops rep_defaults
  refine ⟨rep_auto h1, ?_⟩
  intro i hi h3
  rw [h1.config, BitVec.getLsbD_or]
  have : i = 0 ∨ i = 1 ∨ i = 2 ∨ i = 4 ∨ i = 5 ∨ i = 6 ∨ i = 7 := by omega
  rcases this with rfl | rfl | rfl | rfl | rfl | rfl | rfl <;> simp

example : (run 36 defaults [.initialise true true, .configure true 0x01#8]).1 0x01 = 0x09#8 := by decide +kernel

end Props.Lp503x
