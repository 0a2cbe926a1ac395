import Verif.Lemmas.GpioPins
import Verif.Props.BitOps
import Mathlib.Data.List.Induction

set_option autoImplicit false

/-!
C199–C205: pins of STM32 and AVR microcontrollers in sets and ports.
-/

namespace Props.GpioPins

open Modm.GpioPins GpioPinsSpec GpioPinsLemmas

/-! ### Fields and bits -/

private theorem field_put (w b : Nat) (m : BitVec 16) (r : BitVec w) (v k : Nat) (hv : v < 2 ^ b) (hk : k < 16)
    (hw : b * k + b ≤ w) :
    ((r &&& ~~~ spread w b m (2 ^ b - 1)) ||| spread w b m v).extractLsb' (b * k) b =
      if m.getLsbD k then BitVec.ofNat b v else r.extractLsb' (b * k) b := by
  have hm : 2 ^ b - 1 < 2 ^ b := by have := Nat.pow_pos (a := 2) (n := b) (by omega); omega
  apply BitVec.eq_of_getLsbD_eq
  intro j hj
  rw [BitVec.getLsbD_extractLsb', BitVec.getLsbD_or, BitVec.getLsbD_and, BitVec.getLsbD_not,
    spread_bit w b m v hv k j hk hj (by omega), spread_bit w b m _ hm k j hk hj (by omega),
    Nat.testBit_two_pow_sub_one]
  have hjw : b * k + j < w := by omega
  cases hb : m.getLsbD k <;> simp [hj, hjw, BitVec.getLsbD_ofNat, BitVec.getLsbD_extractLsb', -BitVec.getLsbD_eq_getElem]

private theorem field_clear (w b : Nat) (m : BitVec 16) (r : BitVec w) (k : Nat) (hk : k < 16)
    (hw : b * k + b ≤ w) :
    (r &&& ~~~ spread w b m (2 ^ b - 1)).extractLsb' (b * k) b =
      if m.getLsbD k then 0#b else r.extractLsb' (b * k) b := by
  have h := field_put w b m r 0 k (Nat.pow_pos (by omega)) hk hw
  have h0 : spread w b m 0 = 0#w := by
    unfold spread
    generalize List.range 16 = l
    induction l using List.reverseRecOn with
    | nil => rfl
    | append_singleton l a ih => rw [List.foldl_append, ih]; simp
  rw [h0] at h
  simpa using h

private theorem field_or (w b : Nat) (m : BitVec 16) (r : BitVec w) (k : Nat) (hk : k < 16) (hw : b * k + b ≤ w) :
    (r ||| spread w b m (2 ^ b - 1)).extractLsb' (b * k) b =
      if m.getLsbD k then BitVec.allOnes b else r.extractLsb' (b * k) b := by
  have hm : 2 ^ b - 1 < 2 ^ b := by have := Nat.pow_pos (a := 2) (n := b) (by omega); omega
  apply BitVec.eq_of_getLsbD_eq
  intro j hj
  rw [BitVec.getLsbD_extractLsb', BitVec.getLsbD_or, spread_bit w b m _ hm k j hk hj (by omega),
    Nat.testBit_two_pow_sub_one]
  cases hb : m.getLsbD k <;> simp [hj, BitVec.getLsbD_extractLsb', -BitVec.getLsbD_eq_getElem]

/-! ### C199: sets of pins of the STM32 -/

private theorem view_onPorts (gs : List Pin) (f : Nat → Stm32.Port → Stm32.Port) (s : Nat → Stm32.Port)
    (port k : Nat) (hk : k < 16) (q : Stm32Pin)
    (h1 : has gs port k → stm32Pin (f port (s port)) k = q)
    (h2 : ¬ has gs port k → stm32Pin (f port (s port)) k = stm32Pin (s port) k) :
    stm32Pin (onPorts 16 gs f s port) k = if has gs port k then q else stm32Pin (s port) k := by
  unfold onPorts
  split
  · rename_i h
    rw [if_neg (mask_zero 16 gs port k hk h)]
  · split
    · rename_i h; exact h1 h
    · rename_i h; exact h2 h

private theorem odr_set (gs : List Pin) (port k : Nat) (hk : k < 16) (odr : BitVec 16) :
    (Stm32.writeBsrr (Stm32.halves (inverted 16 gs port) (mask 16 gs port &&& ~~~ inverted 16 gs port)) odr).getLsbD k =
      if has gs port k then !inverts gs port k else odr.getLsbD k := by
  rw [writeBsrr_bit _ _ k hk, halves_low _ _ k hk, halves_high _ _ k hk, BitVec.getLsbD_and, BitVec.getLsbD_not,
    mask_bit 16 gs port k hk, inverted_bit 16 gs port k hk]
  by_cases h : has gs port k
  · cases hi : inverts gs port k <;> simp [h, hk]
  · have : inverts gs port k = false := by
      rw [Bool.eq_false_iff]; exact fun h2 => h (has_of_inverts _ _ _ h2)
    simp [h, this]

private theorem odr_reset (gs : List Pin) (port k : Nat) (hk : k < 16) (odr : BitVec 16) :
    (Stm32.writeBsrr (Stm32.halves (mask 16 gs port &&& ~~~ inverted 16 gs port) (inverted 16 gs port)) odr).getLsbD k =
      if has gs port k then inverts gs port k else odr.getLsbD k := by
  rw [writeBsrr_bit _ _ k hk, halves_low _ _ k hk, halves_high _ _ k hk, BitVec.getLsbD_and, BitVec.getLsbD_not,
    mask_bit 16 gs port k hk, inverted_bit 16 gs port k hk]
  by_cases h : has gs port k
  · cases hi : inverts gs port k <;> simp [h, hk]
  · have : inverts gs port k = false := by
      rw [Bool.eq_false_iff]; exact fun h2 => h (has_of_inverts _ _ _ h2)
    simp [h, this]

private theorem mask2_put (gs : List Pin) (port k : Nat) (hk : k < 16) (r : BitVec 32) (v : Nat) (hv : v < 4) :
    ((r &&& ~~~ Stm32.mask2 gs port 3) ||| Stm32.mask2 gs port v).extractLsb' (2 * k) 2 =
      if has gs port k then BitVec.ofNat 2 v else r.extractLsb' (2 * k) 2 := by
  have := field_put 32 2 (mask 16 gs port) r v k hv hk (by omega)
  rw [mask_bit 16 gs port k hk] at this
  simpa [Stm32.mask2] using this

private theorem mask2_mul (gs : List Pin) (port k : Nat) (hk : k < 16) (r : BitVec 32) (v : BitVec 2) :
    ((r &&& ~~~ Stm32.mask2 gs port 3) ||| (BitVec.ofNat 32 v.toNat * Stm32.mask2 gs port 1)).extractLsb' (2 * k) 2 =
      if has gs port k then v else r.extractLsb' (2 * k) 2 := by
  have h := mask2_put gs port k hk r v.toNat v.isLt
  have h2 : BitVec.ofNat 32 v.toNat * Stm32.mask2 gs port 1 = Stm32.mask2 gs port v.toNat :=
    spread_mul 32 2 (mask 16 gs port) v.toNat (by omega) v.isLt
  rw [h2, h]
  simp

private theorem mask2_clear (gs : List Pin) (port k : Nat) (hk : k < 16) (r : BitVec 32) :
    (r &&& ~~~ Stm32.mask2 gs port 3).extractLsb' (2 * k) 2 =
      if has gs port k then 0 else r.extractLsb' (2 * k) 2 := by
  have := field_clear 32 2 (mask 16 gs port) r k hk (by omega)
  rw [mask_bit 16 gs port k hk] at this
  simpa [Stm32.mask2] using this

private theorem mask2_or (gs : List Pin) (port k : Nat) (hk : k < 16) (r : BitVec 32) :
    (r ||| Stm32.mask2 gs port 3).extractLsb' (2 * k) 2 =
      if has gs port k then 3 else r.extractLsb' (2 * k) 2 := by
  have := field_or 32 2 (mask 16 gs port) r k hk (by omega)
  rw [mask_bit 16 gs port k hk] at this
  have h3 : BitVec.allOnes 2 = 3 := by decide
  rw [h3] at this
  simpa [Stm32.mask2] using this

private theorem setOutput_pin (gs : List Pin) (s : Nat → Stm32.Port) (port k : Nat) (hk : k < 16) :
    stm32Pin (Stm32.setOutput gs s port) k =
      if has gs port k then { stm32Pin (s port) k with mode := 1 } else stm32Pin (s port) k := by
  apply view_onPorts gs _ s port k hk <;> intro h <;> simp [stm32Pin, mask2_put gs port k hk, h]

private theorem set_pin (gs : List Pin) (s : Nat → Stm32.Port) (port k : Nat) (hk : k < 16) :
    stm32Pin (Stm32.set gs s port) k =
      if has gs port k then { stm32Pin (s port) k with high := !inverts gs port k } else stm32Pin (s port) k := by
  apply view_onPorts gs _ s port k hk <;> intro h <;>
    simp [stm32Pin, odr_set gs port k hk, h, -BitVec.getLsbD_eq_getElem]

private theorem reset_pin (gs : List Pin) (s : Nat → Stm32.Port) (port k : Nat) (hk : k < 16) :
    stm32Pin (Stm32.reset gs s port) k =
      if has gs port k then { stm32Pin (s port) k with high := inverts gs port k } else stm32Pin (s port) k := by
  apply view_onPorts gs _ s port k hk <;> intro h <;>
    simp [stm32Pin, odr_reset gs port k hk, h, -BitVec.getLsbD_eq_getElem]

private theorem setStatus_pin (gs : List Pin) (b : Bool) (s : Nat → Stm32.Port) (port k : Nat) (hk : k < 16) :
    stm32Pin (Stm32.setStatus gs b s port) k =
      if has gs port k then { stm32Pin (s port) k with high := b != inverts gs port k } else stm32Pin (s port) k := by
  unfold Stm32.setStatus
  cases b
  · simp [reset_pin gs s port k hk]
  · simp [set_pin gs s port k hk]

private theorem toggle_pin (gs : List Pin) (s : Nat → Stm32.Port) (port k : Nat) (hk : k < 16) :
    stm32Pin (Stm32.toggle gs s port) k =
      if has gs port k then { stm32Pin (s port) k with high := !(stm32Pin (s port) k).high }
      else stm32Pin (s port) k := by
  apply view_onPorts gs _ s port k hk <;> intro h <;>
    simp only [stm32Pin, id, writeBsrr_bit _ _ k hk, halves_low _ _ k hk, halves_high _ _ k hk, BitVec.getLsbD_and,
      BitVec.getLsbD_xor, mask_bit 16 gs port k hk, h] <;>
    cases (s port).odr.getLsbD k <;> simp

private theorem configureOutput_pin (gs : List Pin) (t : Bool) (v : BitVec 2) (s : Nat → Stm32.Port) (port k : Nat)
    (hk : k < 16) :
    stm32Pin (Stm32.configureOutput gs t v s port) k =
      if has gs port k then { stm32Pin (s port) k with openDrain := t, speed := v } else stm32Pin (s port) k := by
  apply view_onPorts gs _ s port k hk <;> intro h <;> cases t <;>
    simp [stm32Pin, mask2_mul gs port k hk, h, mask_bit 16 gs port k hk, hk, -BitVec.getLsbD_eq_getElem,
      -BitVec.ofNat_toNat]

private theorem setInput_pin (gs : List Pin) (s : Nat → Stm32.Port) (port k : Nat) (hk : k < 16) :
    stm32Pin (Stm32.setInput gs s port) k =
      if has gs port k then { stm32Pin (s port) k with mode := 0, openDrain := false, speed := 0 }
      else stm32Pin (s port) k := by
  apply view_onPorts gs _ s port k hk <;> intro h <;>
    simp [stm32Pin, mask2_clear gs port k hk, h, mask_bit 16 gs port k hk, hk, -BitVec.getLsbD_eq_getElem]

private theorem configureInput_pin (gs : List Pin) (t : BitVec 2) (s : Nat → Stm32.Port) (port k : Nat)
    (hk : k < 16) :
    stm32Pin (Stm32.configureInput gs t s port) k =
      if has gs port k then { stm32Pin (s port) k with pull := t } else stm32Pin (s port) k := by
  apply view_onPorts gs _ s port k hk <;> intro h <;>
    simp [stm32Pin, mask2_mul gs port k hk, h, -BitVec.ofNat_toNat]

private theorem setAnalogInput_pin (gs : List Pin) (s : Nat → Stm32.Port) (port k : Nat) (hk : k < 16) :
    stm32Pin (Stm32.setAnalogInput gs s port) k =
      if has gs port k then { stm32Pin (s port) k with mode := 3 } else stm32Pin (s port) k := by
  apply view_onPorts gs _ s port k hk <;> intro h <;> simp [stm32Pin, mask2_or gs port k hk, h]

/-- C199, one call: each pin of the set does what the call says, and all other pins stay as they were. -/
theorem C199_stm32_call (gs : List Pin) (c : Stm32.Call) (s : Nat → Stm32.Port) (port k : Nat) (hk : k < 16) :
    stm32Pin (Stm32.step gs c s port) k =
      if has gs port k then (stm32Pin (s port) k).hear (inverts gs port k) c else stm32Pin (s port) k := by
  cases c <;>
    simp only [Stm32.step, Stm32Pin.hear, setOutput_pin _ _ _ _ hk, set_pin _ _ _ _ hk, reset_pin _ _ _ _ hk,
      setStatus_pin _ _ _ _ _ hk, toggle_pin _ _ _ _ hk, configureOutput_pin _ _ _ _ _ _ hk, setInput_pin _ _ _ _ hk,
      configureInput_pin _ _ _ _ _ hk, setAnalogInput_pin _ _ _ _ hk] <;>
    split <;> rfl

/-- C199: whatever calls are made for whatever sets of pins, each pin is as if it had been told on its own what the
sets it belongs to were told. -/
theorem C199_stm32 (l : List (List Pin × Stm32.Call)) (s : Nat → Stm32.Port) (port k : Nat) (hk : k < 16) :
    stm32Pin (Stm32.run l s port) k = stm32After port k l (stm32Pin (s port) k) := by
  induction l using List.reverseRecOn with
  | nil => rfl
  | append_singleton l c ih =>
      have h1 : Stm32.run (l ++ [c]) s = Stm32.step c.1 c.2 (Stm32.run l s) := by simp [Stm32.run]
      have h2 : ∀ p, stm32After port k (l ++ [c]) p = (if has c.1 port k then
          (stm32After port k l p).hear (inverts c.1 port k) c.2 else stm32After port k l p) := by
        intro p; simp [stm32After]
      rw [h1, h2, C199_stm32_call _ _ _ _ _ hk, ih]

/-- C199: a pin named in the set is taken as inverted if it is `GpioInverted`. -/
theorem C199_inverted (w : Nat) (gs : List Pin) (h : Usable w gs) (g : Pin) (hg : g ∈ gs) :
    has gs g.port g.pin ∧ inverts gs g.port g.pin = g.inverted := by
  refine ⟨⟨g, hg, rfl, rfl⟩, ?_⟩
  unfold inverts
  cases hi : g.inverted
  · rw [List.any_eq_false]
    intro h' hh'
    simp only [Bool.and_eq_true, decide_eq_true_eq, not_and, Bool.not_eq_true]
    intro ⟨hp, hk⟩
    rw [← hi]
    exact h.2 h' hh' g hg hp hk
  · rw [List.any_eq_true]
    exact ⟨g, hg, by simp [hi]⟩

/-- C199, `getDirection()`. -/
theorem C199_getDirection (s : Nat → Stm32.Port) (port k : Nat) (hk : k < 16) :
    Stm32.getDirection port k s =
      (if (stm32Pin (s port) k).mode = 0 then .input else if (stm32Pin (s port) k).mode = 1 then .output else .special) := by
  have key : ∀ v : Nat, v < 4 → (((s port).moder &&& (3#32 <<< (k * 2)) = BitVec.ofNat 32 v <<< (k * 2)) ↔
      (s port).moder.extractLsb' (2 * k) 2 = BitVec.ofNat 2 v) := by
    intro v hv
    have hvb : ∀ j, 2 ≤ j → v.testBit j = false := fun j hj =>
      Nat.testBit_lt_two_pow (Nat.lt_of_lt_of_le hv (Nat.pow_le_pow_right (n := 2) (by omega) hj))
    have h3b : ∀ j, (3#32).getLsbD j = decide (j < 2) := by
      intro j
      by_cases hj : j < 2
      · have : j = 0 ∨ j = 1 := by omega
        rcases this with rfl | rfl <;> decide
      · rw [BitVec.getLsbD_ofNat]
        have : Nat.testBit 3 j = false :=
          Nat.testBit_lt_two_pow (Nat.lt_of_lt_of_le (by omega : 3 < 2 ^ 2) (Nat.pow_le_pow_right (by omega) (by omega)))
        simp [this, hj]
    constructor
    · intro h
      apply BitVec.eq_of_getLsbD_eq
      intro j hj
      have := congrArg (fun x => BitVec.getLsbD x (2 * k + j)) h
      simp only [BitVec.getLsbD_and, BitVec.getLsbD_shiftLeft, BitVec.getLsbD_ofNat, h3b] at this
      have e1 : 2 * k + j - k * 2 = j := by omega
      have e2 : 2 * k + j < 32 := by omega
      have e3 : ¬ (2 * k + j < k * 2) := by omega
      have e4 : j < 32 := by omega
      simp only [e1, e2, e3, e4, hj, decide_true, decide_false, Bool.true_and, Bool.not_false, Bool.and_true] at this
      rw [BitVec.getLsbD_extractLsb', BitVec.getLsbD_ofNat, this]
    · intro h
      apply BitVec.eq_of_getLsbD_eq
      intro i hi
      simp only [BitVec.getLsbD_and, BitVec.getLsbD_shiftLeft, BitVec.getLsbD_ofNat, h3b, hi, decide_true, Bool.true_and]
      by_cases h1 : i < k * 2
      · simp [h1]
      · by_cases h2 : i - k * 2 < 2
        · have := congrArg (fun x => BitVec.getLsbD x (i - k * 2)) h
          simp only [BitVec.getLsbD_extractLsb', BitVec.getLsbD_ofNat, h2, decide_true, Bool.true_and] at this
          have e1 : 2 * k + (i - k * 2) = i := by omega
          have e4 : i - k * 2 < 32 := by omega
          rw [e1] at this
          simp [h1, h2, this, e4]
        · simp [h1, h2, hvb (i - k * 2) (by omega)]
  unfold Stm32.getDirection stm32Pin
  simp only [key 0 (by omega), key 1 (by omega)]
  rfl

/-- Two pins of port 0, one of them inverted, and one of port 2; then a set with one of them only. -/
def exampleSet : List Pin := [⟨0, 3, false⟩, ⟨0, 15, true⟩, ⟨2, 0, false⟩]

example : Usable 16 exampleSet := by
  refine ⟨by decide, by decide⟩

example : stm32After 0 15 [(exampleSet, .setOutputType true 2), (exampleSet, .set), ([⟨0, 3, false⟩], .toggle)]
    ⟨0, false, 0, 0, true⟩ = ⟨1, true, 2, 0, false⟩ := by decide

example : (Stm32.run [(exampleSet, .setOutputType true 2), (exampleSet, .set), ([⟨0, 3, false⟩], .toggle)]
    (fun _ => ⟨0, 0, 0, 0, 0xffff⟩) 0) = ⟨0x40000040, 0x8008, 0x80000080, 0, 0x7ff7⟩ := by decide

/-! ### C200: ports -/

private theorem get_bit {w : Nat} (gs : List Pin) (port k : Nat) (hk : k < w) (r : BitVec w) :
    ((r &&& mask w gs port) ^^^ inverted w gs port).getLsbD k =
      (decide (has gs port k) && (r.getLsbD k != inverts gs port k)) := by
  rw [BitVec.getLsbD_xor, BitVec.getLsbD_and, mask_bit w gs port k hk, inverted_bit w gs port k hk]
  by_cases h : has gs port k
  · simp [h]
  · have : inverts gs port k = false := by
      rw [Bool.eq_false_iff]; exact fun h2 => h (has_of_inverts _ _ _ h2)
    simp [h, this]

/-- C200, reading a port: bit `i` of the result is the register's bit for the `i`-th pin from the start, upwards or, if
reversed, downwards, inverted for inverted pins; the bits beyond the width are 0. -/
theorem C200_portGet {w : Nat} (rev : BitVec w → BitVec w) (hrev : Reverses rev) (start : Pin) (width : Nat)
    (reversed : Bool) (hw : w ≤ 256) (he : w % 2 = 0) (h : PortOk w start width reversed) (reg : Nat → BitVec w)
    (i : Nat) :
    (portGet rev start width reversed reg).getLsbD i =
      (decide (i < width) && ((reg start.port).getLsbD (portBit start reversed i) != start.inverted)) := by
  have key : ∀ k, k < w → (reg start.port &&& mask w (portPins start width reversed) start.port ^^^
      inverted w (portPins start width reversed) start.port).getLsbD k =
      (decide (has (portPins start width reversed) start.port k) && ((reg start.port).getLsbD k != start.inverted)) := by
    intro k hk
    rw [get_bit _ _ k hk, inverts_portPins]
    by_cases hh : has (portPins start width reversed) start.port k <;> simp [hh]
  have hb := portBit_lt w start width reversed h
  obtain ⟨h1, h2, h3⟩ := id h
  unfold portGet
  cases reversed
  · simp only [Bool.false_eq_true, if_false] at h3 ⊢
    rw [BitVec.getLsbD_ushiftRight]
    by_cases hi : i < width
    · have hk := hb i hi
      simp only [portBit, startPin, Bool.false_eq_true, if_false] at hk ⊢
      have hh : has (portPins start width false) start.port (start.pin + i) :=
        (has_portPins _ _ _ _ _).mpr ⟨rfl, i, hi, rfl⟩
      rw [key _ hk]
      simp [hi, hh]
    · simp only [startPin, Bool.false_eq_true, if_false]
      by_cases hk : start.pin + i < w
      · have hh : ¬ has (portPins start width false) start.port (start.pin + i) := by
          rw [has_portPins]
          rintro ⟨_, j, hj, e⟩
          simp only [portBit, Bool.false_eq_true, if_false] at e
          omega
        rw [key _ hk]
        simp [hi, hh]
      · rw [BitVec.getLsbD_of_ge _ _ (by omega)]
        simp [hi]
  · simp only [if_true] at h3 ⊢
    rw [BitVec.getLsbD_ushiftRight, startPinReversed_eq w start width hw he h]
    by_cases hi : i < width
    · have hk := hb i hi
      rw [hrev _ _ (by omega)]
      have e : w - 1 - (w - 1 - start.pin + i) = start.pin - i := by omega
      simp only [portBit, if_true] at hk ⊢
      have hh : has (portPins start width true) start.port (start.pin - i) :=
        (has_portPins _ _ _ _ _).mpr ⟨rfl, i, hi, rfl⟩
      rw [e, key _ hk]
      simp [hi, hh]
    · by_cases hk : w - 1 - start.pin + i < w
      · rw [hrev _ _ hk]
        have hh : ¬ has (portPins start width true) start.port (w - 1 - (w - 1 - start.pin + i)) := by
          rw [has_portPins]
          rintro ⟨_, j, hj, e⟩
          simp only [portBit, if_true] at e
          omega
        rw [key _ (by omega)]
        simp [hi, hh]
      · rw [BitVec.getLsbD_of_ge _ _ (by omega)]
        simp [hi]

theorem reverses16 : Reverses Modm.BitOps.bitReverse16 := fun n i hi => Props.C18_bitReverse16 n i hi
theorem reverses8 : Reverses Modm.BitOps.bitReverse8 := fun n i hi => Props.C18_bitReverse8 n i hi

/-- C200, writing a port of the STM32: the `i`-th pin from the start gets bit `i` of the data, inverted for inverted
pins, and nothing else changes. -/
theorem C200_stm32_portWrite (start : Pin) (width : Nat) (reversed : Bool) (h : PortOk 16 start width reversed)
    (data : BitVec 16) (s : Nat → Stm32.Port) :
    (∀ i, i < width → stm32Pin (Stm32.portWrite Modm.BitOps.bitReverse16 start width reversed data s start.port)
        (portBit start reversed i) =
      { stm32Pin (s start.port) (portBit start reversed i) with high := data.getLsbD i != start.inverted }) ∧
    ∀ port k, k < 16 → (¬ ∃ i < width, port = start.port ∧ k = portBit start reversed i) →
      stm32Pin (Stm32.portWrite Modm.BitOps.bitReverse16 start width reversed data s port) k = stm32Pin (s port) k := by
  constructor
  · intro i hi
    have hk := portBit_lt 16 start width reversed h i hi
    have hh : has (portPins start width reversed) start.port (portBit start reversed i) :=
      (has_portPins _ _ _ _ _).mpr ⟨rfl, i, hi, rfl⟩
    have hm : ¬ mask 16 (portPins start width reversed) start.port = 0#16 := fun h0 => mask_zero _ _ _ _ hk h0 hh
    unfold Stm32.portWrite onPorts
    simp only [hm, if_false, stm32Pin, writeBsrr_bit _ _ _ hk, halves_low _ _ _ hk, halves_high _ _ _ hk,
      BitVec.getLsbD_and, BitVec.getLsbD_not, BitVec.getLsbD_xor, mask_bit _ _ _ _ hk, inverted_bit _ _ _ _ hk,
      inverts_portPins, hh, portData_bit _ reverses16 start width reversed (by omega) (by omega) h data i hi, hk]
    cases data.getLsbD i <;> cases start.inverted <;> simp
  · intro port k hk hn
    have hh : ¬ has (portPins start width reversed) port k := by
      rw [has_portPins]
      rintro ⟨e, i, hi, e2⟩
      exact hn ⟨i, hi, e, e2⟩
    unfold Stm32.portWrite onPorts
    split
    · rfl
    · simp [stm32Pin, writeBsrr_bit _ _ _ hk, halves_low _ _ _ hk, halves_high _ _ _ hk,
        mask_bit _ _ _ _ hk, hh, -BitVec.getLsbD_eq_getElem]

/-- C200, writing a port of the AVR. -/
theorem C200_avr_portWrite (start : Pin) (width : Nat) (reversed : Bool) (h : PortOk 8 start width reversed)
    (data : BitVec 8) (s : Nat → Avr.Port) :
    (∀ i, i < width → avrPin (Avr.portWrite Modm.BitOps.bitReverse8 start width reversed data s start.port)
        (portBit start reversed i) =
      { avrPin (s start.port) (portBit start reversed i) with bit := data.getLsbD i != start.inverted }) ∧
    ∀ port k, k < 8 → (¬ ∃ i < width, port = start.port ∧ k = portBit start reversed i) →
      avrPin (Avr.portWrite Modm.BitOps.bitReverse8 start width reversed data s port) k = avrPin (s port) k := by
  constructor
  · intro i hi
    have hk := portBit_lt 8 start width reversed h i hi
    have hh : has (portPins start width reversed) start.port (portBit start reversed i) :=
      (has_portPins _ _ _ _ _).mpr ⟨rfl, i, hi, rfl⟩
    have hm : ¬ mask 8 (portPins start width reversed) start.port = 0#8 := fun h0 => mask_zero _ _ _ _ hk h0 hh
    unfold Avr.portWrite onPorts
    simp only [hm, if_false, avrPin, BitVec.getLsbD_or,
      BitVec.getLsbD_and, BitVec.getLsbD_not, BitVec.getLsbD_xor, mask_bit _ _ _ _ hk, inverted_bit _ _ _ _ hk,
      inverts_portPins, hh, portData_bit _ reverses8 start width reversed (by omega) (by omega) h data i hi, hk]
    cases data.getLsbD i <;> cases start.inverted <;> simp
  · intro port k hk hn
    have hh : ¬ has (portPins start width reversed) port k := by
      rw [has_portPins]
      rintro ⟨e, i, hi, e2⟩
      exact hn ⟨i, hi, e, e2⟩
    unfold Avr.portWrite onPorts
    split
    · rfl
    · simp [avrPin, mask_bit _ _ _ _ hk, inverted_bit _ _ _ _ hk, inverts_portPins, hh, hk,
        -BitVec.getLsbD_eq_getElem]

example : PortOk 16 ⟨1, 9, true⟩ 4 true ∧
    Stm32.portWrite Modm.BitOps.bitReverse16 ⟨1, 9, true⟩ 4 true 0b0001 (fun _ => ⟨0, 0, 0, 0, 0xf00f⟩) 1 =
      ⟨0, 0, 0, 0, 0xf1cf⟩ ∧
    portGet Modm.BitOps.bitReverse16 ⟨1, 9, true⟩ 4 true (fun _ => 0xf1cf#16) = 1 := by decide

/-! #### Ports of any pins -/

/-- The pin of bit `i`: the pins are given from the highest bit to the lowest. -/
private theorem soft_index (w : Nat) (gs : List Pin) (h : SoftOk w gs) (i : Nat) (hi : i < gs.length) (g : Pin)
    (hg : gs[gs.length - 1 - i]? = some g) (j pos : Nat) (hj : j < gs.length) (hs : shiftMask gs g.port j = some pos) :
    pos < w ∧ (pos = g.pin ↔ j = i) := by
  obtain ⟨hp, _, hn⟩ := h
  rw [shiftMask_some] at hs
  obtain ⟨g', hg', e1, e2⟩ := hs
  have hm : g' ∈ gs := List.mem_of_getElem? hg'
  refine ⟨by rw [← e2]; exact hp _ hm, ?_⟩
  constructor
  · intro e
    have e3 : (gs.map (fun g => (g.port, g.pin)))[gs.length - 1 - j]? =
        (gs.map (fun g => (g.port, g.pin)))[gs.length - 1 - i]? := by
      simp [List.getElem?_map, hg, hg', e1, e2, e]
    have := (List.getElem?_inj (by simp; omega) hn).mp e3
    omega
  · rintro rfl
    rw [hg] at hg'
    injection hg' with e
    rw [← e2, ← e]

private theorem soft_usable (w : Nat) (gs : List Pin) (h : SoftOk w gs) : Usable w gs := by
  refine ⟨h.1, ?_⟩
  intro a ha b hb e1 e2
  have hn := h.2.2
  obtain ⟨i, hi, rfl⟩ := List.getElem_of_mem ha
  obtain ⟨j, hj, rfl⟩ := List.getElem_of_mem hb
  have e3 : (gs.map (fun g => (g.port, g.pin)))[i]? = (gs.map (fun g => (g.port, g.pin)))[j]? := by
    simp [hi, hj, e1, e2]
  have := (List.getElem?_inj (by simpa using hi) hn).mp e3
  subst this
  rfl

/-- C200, reading a `SoftwareGpioPort`: bit `i` of the result is the register's bit for the pin of bit `i`, inverted
for inverted pins, and the bits beyond the width are 0.  `ids` are the device's ports. -/
theorem C200_softGet (w : Nat) (gs : List Pin) (h : SoftOk w gs) (ids : List Nat) (hids : ∀ g ∈ gs, g.port ∈ ids)
    (reg : Nat → BitVec w) (i : Nat) :
    (softGet gs ids reg).getLsbD i =
      match (if i < gs.length then gs[gs.length - 1 - i]? else none) with
      | some g => (reg g.port).getLsbD g.pin != g.inverted
      | none => false := by
  by_cases hi : i < gs.length
  · have hlt : gs.length - 1 - i < gs.length := by omega
    have hg : gs[gs.length - 1 - i]? = some gs[gs.length - 1 - i] := List.getElem?_eq_getElem hlt
    generalize gs[gs.length - 1 - i] = g at hg
    have hm : g ∈ gs := List.mem_of_getElem? hg
    have hk := h.1 g hm
    have hu := C199_inverted w gs (soft_usable w gs h) g hm
    have hi32 : i < 32 := by have := h.2.1; omega
    simp only [hi, if_true, hg]
    rw [Bool.eq_iff_iff, softGet_bit gs ids reg i hi32]
    constructor
    · rintro ⟨id, _, _, _, pos, hs, hb⟩
      rw [shiftMask_some] at hs
      obtain ⟨g', hg', e1, e2⟩ := hs
      rw [hg] at hg'
      injection hg' with e
      subst e e1 e2
      rw [get_bit _ _ _ hk, hu.2] at hb
      simpa [hu.1] using hb
    · intro hb
      refine ⟨g.port, hids g hm, fun h0 => mask_zero _ _ _ _ hk h0 hu.1, hi, g.pin,
        (shiftMask_some _ _ _ _).mpr ⟨g, hg, rfl, rfl⟩, ?_⟩
      rw [get_bit _ _ _ hk, hu.2]
      simpa [hu.1] using hb
  · simp only [hi, if_false]
    by_cases hi32 : i < 32
    · rw [Bool.eq_false_iff, ne_eq, softGet_bit gs ids reg i hi32]
      rintro ⟨_, _, _, h2, _⟩
      exact hi h2
    · exact BitVec.getLsbD_of_ge _ _ (by omega)

/-- The bits of `p`. -/
private theorem soft_bits (w : Nat) (hw : w ≤ 16) (gs : List Pin) (h : SoftOk w gs) (data : BitVec 32) (i : Nat)
    (hi : i < gs.length) (g : Pin) (hg : gs[gs.length - 1 - i]? = some g) :
    (softData gs g.port data).getLsbD g.pin = data.getLsbD i ∧
    (softData gs g.port data).getLsbD (16 + g.pin) = !data.getLsbD i := by
  have hk := h.1 g (List.mem_of_getElem? hg)
  have hs : shiftMask gs g.port i = some g.pin := (shiftMask_some _ _ _ _).mpr ⟨g, hg, rfl, rfl⟩
  constructor
  · rw [Bool.eq_iff_iff, softData_bit _ _ _ _ (by omega)]
    constructor
    · rintro ⟨j, hj, pos, hsj, hd⟩
      have := soft_index w gs h i hi g hg j pos hj hsj
      rcases hd with ⟨hd, e⟩ | ⟨_, e⟩
      · rw [← this.2.mp e]; exact hd
      · omega
    · intro hd
      exact ⟨i, hi, g.pin, hs, Or.inl ⟨hd, rfl⟩⟩
  · rw [Bool.eq_iff_iff, softData_bit _ _ _ _ (by omega)]
    constructor
    · rintro ⟨j, hj, pos, hsj, hd⟩
      have := soft_index w gs h i hi g hg j pos hj hsj
      rcases hd with ⟨_, e⟩ | ⟨hd, e⟩
      · omega
      · rw [← this.2.mp (by omega), hd]; rfl
    · intro hd
      exact ⟨i, hi, g.pin, hs, Or.inr ⟨by simpa using hd, by omega⟩⟩

private theorem soft_others (w : Nat) (hw : w ≤ 16) (gs : List Pin) (h : SoftOk w gs) (data : BitVec 32) (port k : Nat)
    (hk : k < w) (hn : ¬ has gs port k) :
    (softData gs port data).getLsbD k = false ∧ (softData gs port data).getLsbD (16 + k) = false := by
  constructor
  · rw [Bool.eq_false_iff, ne_eq, softData_bit _ _ _ _ (by omega)]
    rintro ⟨j, hj, pos, hs, hd⟩
    obtain ⟨g, hg, e1, e2⟩ := (shiftMask_some _ _ _ _).mp hs
    rcases hd with ⟨_, e⟩ | ⟨_, e⟩
    · exact hn ⟨g, List.mem_of_getElem? hg, e1, by omega⟩
    · omega
  · rw [Bool.eq_false_iff, ne_eq, softData_bit _ _ _ _ (by omega)]
    rintro ⟨j, hj, pos, hs, hd⟩
    obtain ⟨g, hg, e1, e2⟩ := (shiftMask_some _ _ _ _).mp hs
    have := h.1 g (List.mem_of_getElem? hg)
    rcases hd with ⟨_, e⟩ | ⟨_, e⟩
    · omega
    · exact hn ⟨g, List.mem_of_getElem? hg, e1, by omega⟩

/-- C200, writing a `SoftwareGpioPort` of the STM32: the pin of bit `i` gets bit `i`, inverted for inverted pins (where
`BSRR` is written with both bits for a 0, and the one to set wins), and nothing else changes. -/
theorem C200_stm32_softWrite (gs : List Pin) (h : SoftOk 16 gs) (data : BitVec 32) (s : Nat → Stm32.Port) :
    (∀ i g, i < gs.length → gs[gs.length - 1 - i]? = some g →
      stm32Pin (Stm32.softWrite gs data s g.port) g.pin =
        { stm32Pin (s g.port) g.pin with high := data.getLsbD i != g.inverted }) ∧
    ∀ port k, k < 16 → ¬ has gs port k →
      stm32Pin (Stm32.softWrite gs data s port) k = stm32Pin (s port) k := by
  constructor
  · intro i g hi hg
    have hm : g ∈ gs := List.mem_of_getElem? hg
    have hk := h.1 g hm
    have hu := C199_inverted 16 gs (soft_usable 16 gs h) g hm
    have hz : ¬ mask 16 gs g.port = 0#16 := fun h0 => mask_zero _ _ _ _ hk h0 hu.1
    have hb := soft_bits 16 (by omega) gs h data i hi g hg
    have k1 : g.pin < 32 := by omega
    have k2 : 16 + g.pin < 32 := by omega
    have k3 : ¬ (16 + g.pin < 16) := by omega
    have k4 : 16 + g.pin - 16 = g.pin := by omega
    have k5 : (inverted 16 gs g.port).getLsbD (16 + g.pin) = false := BitVec.getLsbD_of_ge _ _ (by omega)
    unfold Stm32.softWrite onPorts
    simp only [hz, if_false, stm32Pin, writeBsrr_bit _ _ _ hk, BitVec.getLsbD_or, BitVec.getLsbD_shiftLeft,
      BitVec.getLsbD_and, BitVec.getLsbD_not, BitVec.getLsbD_xor, BitVec.getLsbD_setWidth, mask_bit _ _ _ _ hk,
      inverted_bit _ _ _ _ hk, hu.1, hu.2, hb.1, hb.2, k1, k2, k3, k4, k5, hk]
    cases data.getLsbD i <;> cases g.inverted <;> simp
  · intro port k hk hn
    have hb := soft_others 16 (by omega) gs h data port k hk hn
    have hinv : inverts gs port k = false := by
      rw [Bool.eq_false_iff]; exact fun h2 => hn (has_of_inverts _ _ _ h2)
    have k1 : k < 32 := by omega
    have k2 : 16 + k < 32 := by omega
    have k3 : ¬ (16 + k < 16) := by omega
    have k4 : 16 + k - 16 = k := by omega
    have k5 : (inverted 16 gs port).getLsbD (16 + k) = false := BitVec.getLsbD_of_ge _ _ (by omega)
    unfold Stm32.softWrite onPorts
    split
    · rfl
    · simp only [stm32Pin, writeBsrr_bit _ _ _ hk, BitVec.getLsbD_or, BitVec.getLsbD_shiftLeft,
        BitVec.getLsbD_and, BitVec.getLsbD_not, BitVec.getLsbD_xor, BitVec.getLsbD_setWidth, mask_bit _ _ _ _ hk,
        inverted_bit _ _ _ _ hk, hn, hinv, hb.1, hb.2, k1, k2, k3, k4, k5, hk]
      simp

/-- C200, writing a `SoftwareGpioPort` of the AVR. -/
theorem C200_avr_softWrite (gs : List Pin) (h : SoftOk 8 gs) (data : BitVec 32) (s : Nat → Avr.Port) :
    (∀ i g, i < gs.length → gs[gs.length - 1 - i]? = some g →
      avrPin (Avr.softWrite gs data s g.port) g.pin =
        { avrPin (s g.port) g.pin with bit := data.getLsbD i != g.inverted }) ∧
    ∀ port k, k < 8 → ¬ has gs port k →
      avrPin (Avr.softWrite gs data s port) k = avrPin (s port) k := by
  constructor
  · intro i g hi hg
    have hm : g ∈ gs := List.mem_of_getElem? hg
    have hk := h.1 g hm
    have hu := C199_inverted 8 gs (soft_usable 8 gs h) g hm
    have hz : ¬ mask 8 gs g.port = 0#8 := fun h0 => mask_zero _ _ _ _ hk h0 hu.1
    have hb := soft_bits 8 (by omega) gs h data i hi g hg
    unfold Avr.softWrite onPorts
    simp only [hz, if_false, avrPin, BitVec.getLsbD_or, BitVec.getLsbD_and, BitVec.getLsbD_not, BitVec.getLsbD_xor,
      BitVec.getLsbD_setWidth, mask_bit _ _ _ _ hk, inverted_bit _ _ _ _ hk, hu.1, hu.2, hb.1, hk]
    cases data.getLsbD i <;> cases g.inverted <;> simp
  · intro port k hk hn
    have hb := soft_others 8 (by omega) gs h data port k hk hn
    have hinv : inverts gs port k = false := by
      rw [Bool.eq_false_iff]; exact fun h2 => hn (has_of_inverts _ _ _ h2)
    unfold Avr.softWrite onPorts
    split
    · rfl
    · simp only [avrPin, BitVec.getLsbD_or, BitVec.getLsbD_and, BitVec.getLsbD_not, BitVec.getLsbD_xor,
        BitVec.getLsbD_setWidth, mask_bit _ _ _ _ hk, inverted_bit _ _ _ _ hk, hn, hinv, hb.1, hk]
      simp

example : SoftOk 16 exampleSet ∧
    Stm32.softWrite exampleSet 0b001 (fun _ => ⟨0, 0, 0, 0, 0x0018⟩) 0 = ⟨0, 0, 0, 0, 0x8010⟩ ∧
    softGet exampleSet [0, 1, 2] (fun id => if id = 0 then 0x8010#16 else 1#16) = 1 := by
  refine ⟨⟨by decide, by decide, by decide⟩, by decide, by decide⟩

/-! ### C201: the STM32F1 -/

private theorem crl_spread (gs : List Pin) (id v : Nat) (hv : v < 16) (k j : Nat) (hk : k < 8) (hj : j < 4) :
    (F1.crlOf gs id v).getLsbD (4 * k + j) = ((mask 16 gs id).getLsbD k && v.testBit j) := by
  have h1 : 4 * k + j < 32 := by omega
  unfold F1.crlOf
  rw [BitVec.getLsbD_setWidth, spread_bit 64 4 _ v hv k j (by omega) hj (by omega)]
  simp [h1]

private theorem crh_spread (gs : List Pin) (id v : Nat) (hv : v < 16) (k j : Nat) (hk : k < 8) (hj : j < 4) :
    (F1.crhOf gs id v).getLsbD (4 * k + j) = ((mask 16 gs id).getLsbD (8 + k) && v.testBit j) := by
  have h1 : 4 * k + j < 32 := by omega
  have h2 : 32 + (4 * k + j) = 4 * (8 + k) + j := by omega
  unfold F1.crhOf
  rw [BitVec.getLsbD_setWidth, BitVec.getLsbD_ushiftRight, h2, spread_bit 64 4 _ v hv (8 + k) j (by omega) hj (by omega)]
  simp [h1]

private theorem crl_eq (gs : List Pin) (id v : Nat) (hv : v < 16) :
    F1.crlOf gs id v = spread 32 4 (mask 16 gs id) v := by
  apply BitVec.eq_of_getLsbD_eq
  intro i hi
  have e : i = 4 * (i / 4) + i % 4 := by omega
  rw [e, crl_spread gs id v hv (i / 4) (i % 4) (by omega) (by omega),
    spread_bit 32 4 _ v hv (i / 4) (i % 4) (by omega) (by omega) (by omega)]

private theorem crh_eq (gs : List Pin) (id v : Nat) (hv : v < 16) :
    F1.crhOf gs id v = spread 32 4 (mask 16 gs id >>> 8) v := by
  apply BitVec.eq_of_getLsbD_eq
  intro i hi
  have e : i = 4 * (i / 4) + i % 4 := by omega
  rw [e, crh_spread gs id v hv (i / 4) (i % 4) (by omega) (by omega),
    spread_bit 32 4 _ v hv (i / 4) (i % 4) (by omega) (by omega) (by omega), BitVec.getLsbD_ushiftRight]

/-- A field of `CRL` or `CRH` after one of the statements. -/
private theorem field_f1 (m : BitVec 16) (r : BitVec 32) (v : BitVec 4) (k : Nat) (hk : k < 8) :
    (F1.field (spread 32 4 m 15) (spread 32 4 m 1) r v.toNat).extractLsb' (4 * k) 4 =
      if m.getLsbD k then v else r.extractLsb' (4 * k) 4 := by
  have h := field_put 32 4 m r v.toNat k v.isLt (by omega) (by omega)
  unfold F1.field
  split
  · rename_i h0
    have := spread_bit 32 4 m 15 (by omega) k 0 (by omega) (by omega) (by omega)
    rw [h0] at this
    have hm : m.getLsbD k = false := by simpa using this.symm
    simp [hm]
  · rw [spread_mul 32 4 m v.toNat (by omega) v.isLt]
    simpa using h

private theorem f1Field_put (gs : List Pin) (id k : Nat) (hk : k < 16) (v : BitVec 4) (p : F1.Port) (odr : BitVec 16) :
    f1Field ⟨F1.field (F1.crlOf gs id 15) (F1.crlOf gs id 1) p.crl v.toNat,
      F1.field (F1.crhOf gs id 15) (F1.crhOf gs id 1) p.crh v.toNat, odr⟩ k =
      if has gs id k then v else f1Field p k := by
  unfold f1Field
  by_cases h : k < 8
  · simp only [h, if_true, crl_eq gs id _ (by omega : 15 < 16), crl_eq gs id _ (by omega : 1 < 16)]
    rw [field_f1 _ _ _ k h, mask_bit 16 gs id k hk]
    simp
  · simp only [h, if_false, crh_eq gs id _ (by omega : 15 < 16), crh_eq gs id _ (by omega : 1 < 16)]
    have e : 8 + (k - 8) = k := by omega
    rw [field_f1 _ _ _ (k - 8) (by omega), BitVec.getLsbD_ushiftRight, e, mask_bit 16 gs id k hk]
    simp

private theorem f1_onPorts (gs : List Pin) (f : Nat → F1.Port → F1.Port) (s : Nat → F1.Port)
    (port k : Nat) (hk : k < 16) (q : BitVec 4 × Bool)
    (h1 : has gs port k → (f1Field (f port (s port)) k, (f port (s port)).odr.getLsbD k) = q)
    (h2 : ¬ has gs port k → (f1Field (f port (s port)) k, (f port (s port)).odr.getLsbD k) =
      (f1Field (s port) k, (s port).odr.getLsbD k)) :
    (f1Field (onPorts 16 gs f s port) k, (onPorts 16 gs f s port).odr.getLsbD k) =
      if has gs port k then q else (f1Field (s port) k, (s port).odr.getLsbD k) := by
  unfold onPorts
  split
  · rename_i h
    rw [if_neg (mask_zero 16 gs port k hk h)]
  · split
    · rename_i h; exact h1 h
    · rename_i h; exact h2 h

private theorem f1_configureOutput (gs : List Pin) (t v : BitVec 4) (s : Nat → F1.Port) (port k : Nat) (hk : k < 16) :
    (f1Field (F1.configureOutput gs t v s port) k, (F1.configureOutput gs t v s port).odr.getLsbD k) =
      if has gs port k then (t ||| v, (s port).odr.getLsbD k) else (f1Field (s port) k, (s port).odr.getLsbD k) := by
  apply f1_onPorts gs _ s port k hk <;> intro h <;>
    simp only [f1Field_put gs port k hk (t ||| v) (s port), h, if_true, if_false]

private theorem f1_set (gs : List Pin) (s : Nat → F1.Port) (port k : Nat) (hk : k < 16) :
    (f1Field (F1.set gs s port) k, (F1.set gs s port).odr.getLsbD k) =
      if has gs port k then (f1Field (s port) k, !inverts gs port k)
      else (f1Field (s port) k, (s port).odr.getLsbD k) := by
  apply f1_onPorts gs _ s port k hk <;> intro h <;>
    simp [f1Field, odr_set gs port k hk, h, -BitVec.getLsbD_eq_getElem]

private theorem f1_reset (gs : List Pin) (s : Nat → F1.Port) (port k : Nat) (hk : k < 16) :
    (f1Field (F1.reset gs s port) k, (F1.reset gs s port).odr.getLsbD k) =
      if has gs port k then (f1Field (s port) k, inverts gs port k)
      else (f1Field (s port) k, (s port).odr.getLsbD k) := by
  apply f1_onPorts gs _ s port k hk <;> intro h <;>
    simp [f1Field, odr_reset gs port k hk, h, -BitVec.getLsbD_eq_getElem]

private theorem f1_configureInput (gs : List Pin) (t : BitVec 4) (s : Nat → F1.Port) (port k : Nat) (hk : k < 16) :
    (f1Field (F1.configureInput gs t s port) k, (F1.configureInput gs t s port).odr.getLsbD k) =
      if has gs port k then (t &&& 0xc#4, decide (t = 9#4)) else (f1Field (s port) k, (s port).odr.getLsbD k) := by
  have k1 : k < 32 := by omega
  have k2 : 16 + k < 32 := by omega
  have k3 : ¬ (16 + k < 16) := by omega
  have k4 : 16 + k - 16 = k := by omega
  have k5 : (mask 16 gs port).getLsbD (16 + k) = false := BitVec.getLsbD_of_ge _ _ (by omega)
  apply f1_onPorts gs _ s port k hk <;> intro h <;>
    simp only [f1Field_put gs port k hk (t &&& 0xc#4) (s port), h, if_true, if_false, writeBsrr_bit _ _ _ hk,
      BitVec.getLsbD_shiftLeft, BitVec.getLsbD_setWidth] <;>
    by_cases ht : t = 9#4 <;> simp only [ht, if_true, if_false, Nat.sub_zero, k1, k2, k3, k4, k5, hk,
      mask_bit _ _ _ _ hk, h] <;> simp

private theorem f1_setAnalogInput (gs : List Pin) (s : Nat → F1.Port) (port k : Nat) (hk : k < 16) :
    (f1Field (F1.setAnalogInput gs s port) k, (F1.setAnalogInput gs s port).odr.getLsbD k) =
      if has gs port k then (0, (s port).odr.getLsbD k) else (f1Field (s port) k, (s port).odr.getLsbD k) := by
  have hc : f1Field { s port with
      crl := (s port).crl &&& ~~~ F1.crlOf gs port 15, crh := (s port).crh &&& ~~~ F1.crhOf gs port 15 } k =
      if has gs port k then 0 else f1Field (s port) k := by
    unfold f1Field
    rw [crl_eq gs port _ (by omega : 15 < 16), crh_eq gs port _ (by omega : 15 < 16)]
    by_cases h : k < 8
    · have := field_clear 32 4 (mask 16 gs port) (s port).crl k hk (by omega)
      rw [mask_bit 16 gs port k hk] at this
      simpa [h] using this
    · have e : 8 + (k - 8) = k := by omega
      have := field_clear 32 4 (mask 16 gs port >>> 8) (s port).crh (k - 8) (by omega) (by omega)
      rw [BitVec.getLsbD_ushiftRight, e, mask_bit 16 gs port k hk] at this
      simpa [h] using this
  apply f1_onPorts gs _ s port k hk <;> intro h <;> simp only [hc, h, if_true, if_false]

/-- C201, calls on the F1: each pin of the set does what the call says, and all other pins stay as they were. -/
theorem C201_f1_call (gs : List Pin) (c : F1.Call) (hc : F1Ok c) (s : Nat → F1.Port) (port k : Nat) (hk : k < 16) :
    (f1Field (F1.step gs c s port) k, (F1.step gs c s port).odr.getLsbD k) =
      if has gs port k then f1Hear (inverts gs port k) c (f1Field (s port) k, (s port).odr.getLsbD k)
      else (f1Field (s port) k, (s port).odr.getLsbD k) := by
  cases c with
  | setOutput => simp only [F1.step, f1_configureOutput _ _ _ _ _ _ hk, f1Hear]; rfl
  | setOutputStatus b =>
      have h1 := fun s => f1_configureOutput gs 0#4 3#4 s port k hk
      have h2 : ((if b then F1.set gs s else F1.reset gs s) port).odr.getLsbD k =
          if has gs port k then b != inverts gs port k else (s port).odr.getLsbD k := by
        cases b
        · have := congrArg Prod.snd (f1_reset gs s port k hk)
          by_cases h : has gs port k <;> simpa [h] using this
        · have := congrArg Prod.snd (f1_set gs s port k hk)
          by_cases h : has gs port k <;> simpa [h] using this
      have h3 : f1Field ((if b then F1.set gs s else F1.reset gs s) port) k = f1Field (s port) k := by
        cases b
        · have := congrArg Prod.fst (f1_reset gs s port k hk)
          by_cases h : has gs port k <;> simpa [h] using this
        · have := congrArg Prod.fst (f1_set gs s port k hk)
          by_cases h : has gs port k <;> simpa [h] using this
      simp only [F1.step, h1, h2, h3, f1Hear]
      by_cases h : has gs port k <;> simp [h]
  | configureOutput t v => simp only [F1.step, f1_configureOutput _ _ _ _ _ _ hk, f1Hear]
  | setInput => simp only [F1.step, f1_configureInput _ _ _ _ _ hk, f1Hear]; rfl
  | configureInput t =>
      simp only [F1.step, f1_configureInput _ _ _ _ _ hk, f1Hear]
      rcases hc with rfl | rfl | rfl <;> simp
  | setAnalogInput => simp only [F1.step, f1_setAnalogInput _ _ _ _ hk, f1Hear]
  | set => simp only [F1.step, f1_set _ _ _ _ hk, f1Hear]
  | reset => simp only [F1.step, f1_reset _ _ _ _ hk, f1Hear]

example : F1.step exampleSet (.configureInput 9) (fun _ => ⟨0x33333333, 0x44444444, 0⟩) 0 =
    ⟨0x33338333, 0x84444444, 0x8008⟩ := by decide

private theorem or_eight (r : BitVec 32) (m m' : Nat) (hm : m < 8) (hm' : m' < 8) :
    (r ||| (8#32 <<< (m * 4))).extractLsb' (4 * m') 4 =
      if m' = m then r.extractLsb' (4 * m') 4 ||| 8#4 else r.extractLsb' (4 * m') 4 := by
  have h8 : (8#32 <<< (m * 4)) = bit 32 (4 * m + 3) := by
    have : m = 0 ∨ m = 1 ∨ m = 2 ∨ m = 3 ∨ m = 4 ∨ m = 5 ∨ m = 6 ∨ m = 7 := by omega
    rcases this with rfl | rfl | rfl | rfl | rfl | rfl | rfl | rfl <;> decide
  have h84 : ∀ j, j < 4 → (8#4).getLsbD j = decide (3 = j) := fun j hj => bit_bit 4 3 j hj
  apply BitVec.eq_of_getLsbD_eq
  intro j hj
  rw [BitVec.getLsbD_extractLsb', BitVec.getLsbD_or, h8, bit_bit 32 _ _ (by omega)]
  by_cases e : m' = m
  · subst e
    have : (4 * m' + 3 = 4 * m' + j) ↔ (3 = j) := by omega
    simp only [if_true, BitVec.getLsbD_or, BitVec.getLsbD_extractLsb', h84 j hj, this, hj, decide_true, Bool.true_and]
  · have : ¬ (4 * m + 3 = 4 * m' + j) := by omega
    simp only [e, if_false, this, decide_false, Bool.or_false, BitVec.getLsbD_extractLsb', hj, decide_true, Bool.true_and]

private theorem and_three (r : BitVec 32) (m : Nat) (hm : m < 8) :
    (r &&& (3#32 <<< (m * 4)) ≠ 0#32) ↔ (r.extractLsb' (4 * m) 4).extractLsb' 0 2 ≠ 0 := by
  have h3 : ∀ i, i < 32 → (3#32 <<< (m * 4)).getLsbD i = decide (4 * m = i ∨ 4 * m + 1 = i) := by
    have : m = 0 ∨ m = 1 ∨ m = 2 ∨ m = 3 ∨ m = 4 ∨ m = 5 ∨ m = 6 ∨ m = 7 := by omega
    rcases this with rfl | rfl | rfl | rfl | rfl | rfl | rfl | rfl <;> decide
  apply not_congr
  constructor
  · intro h
    apply BitVec.eq_of_getLsbD_eq
    intro j hj
    have := congrArg (fun x => BitVec.getLsbD x (4 * m + j)) h
    simp only [BitVec.getLsbD_and, h3 _ (by omega : 4 * m + j < 32)] at this
    have e : 4 * m = 4 * m + j ∨ 4 * m + 1 = 4 * m + j := by omega
    have e4 : j < 4 := by omega
    rw [decide_eq_true e, Bool.and_true] at this
    rw [BitVec.getLsbD_extractLsb', BitVec.getLsbD_extractLsb']
    simpa [hj, e4, -BitVec.getLsbD_eq_getElem] using this
  · intro h
    apply BitVec.eq_of_getLsbD_eq
    intro i hi
    rw [BitVec.getLsbD_and, h3 i hi]
    by_cases e : 4 * m = i ∨ 4 * m + 1 = i
    · have := congrArg (fun x => BitVec.getLsbD x (i - 4 * m)) h
      simp only [BitVec.getLsbD_extractLsb'] at this
      have e1 : 4 * m + (0 + (i - 4 * m)) = i := by omega
      have e2 : i - 4 * m < 2 := by omega
      have e3 : 0 + (i - 4 * m) < 4 := by omega
      rw [e1] at this
      simp only [e2, e3, decide_true, Bool.true_and] at this
      rw [this]
      simp
    · simp [e]

/-- C201, alternate functions on the F1: an output becomes the output of its function, inputs and analog pins stay as
they are, and no other pin changes. -/
theorem C201_setAlternateFunction (s : Nat → F1.Port) (port k port' k' : Nat) (hk : k < 16) (hk' : k' < 16) :
    f1Field (F1.setAlternateFunction port k s port') k' =
      (if port' = port ∧ k' = k ∧ (f1Field (s port) k).extractLsb' 0 2 ≠ 0 then f1Field (s port) k ||| 8
       else f1Field (s port') k') ∧
    (F1.setAlternateFunction port k s port').odr = (s port').odr := by
  unfold F1.setAlternateFunction
  by_cases hp : port' = port
  · subst hp
    simp only [if_true, true_and]
    by_cases h : k < 8
    · have e : k % 8 = k := by omega
      simp only [F1.gcr, h, if_true, e, and_three _ k h, f1Field]
      by_cases hf : BitVec.extractLsb' 0 2 (BitVec.extractLsb' (4 * k) 4 (s port').crl) ≠ 0
      · rw [if_pos hf]
        by_cases h' : k' < 8
        · simp only [h', if_true, or_eight _ k k' h h', hf, ne_eq, not_false_eq_true, and_true]
          by_cases ek : k' = k
          · subst ek; simp
          · simp [ek]
        · have ek : ¬ k' = k := by omega
          simp [h', ek]
      · rw [if_neg hf]
        refine ⟨(if_neg (fun h0 => hf h0.2)).symm, rfl⟩
    · have e : k % 8 = k - 8 := by omega
      simp only [F1.gcr, h, if_false, e, and_three _ (k - 8) (by omega), f1Field]
      by_cases hf : BitVec.extractLsb' 0 2 (BitVec.extractLsb' (4 * (k - 8)) 4 (s port').crh) ≠ 0
      · rw [if_pos hf]
        by_cases h' : k' < 8
        · have ek : ¬ k' = k := by omega
          simp [h', ek]
        · simp only [h', if_false, or_eight _ (k - 8) (k' - 8) (by omega) (by omega), hf, ne_eq, not_false_eq_true,
            and_true]
          by_cases ek : k' = k
          · subst ek; simp
          · have ek' : ¬ k' - 8 = k - 8 := by omega
            simp [ek, ek']
      · rw [if_neg hf]
        refine ⟨(if_neg (fun h0 => hf h0.2)).symm, rfl⟩
  · simp [hp]

example : F1.setAlternateFunction 0 9 (fun _ => ⟨0x33333333, 0x44444434, 0⟩) 0 = ⟨0x33333333, 0x444444b4, 0⟩ ∧
    F1.setAlternateFunction 0 8 (fun _ => ⟨0x33333333, 0x44444434, 0⟩) 0 = ⟨0x33333333, 0x44444434, 0⟩ := by decide

/-- C202: `getDirection()` tells the direction of the pin. -/
def C202_full : Prop :=
  ∀ (s : Nat → F1.Port) (port k : Nat), k < 16 →
    F1.getDirection port k s = f1Direction (f1Field (s port) k)

/-- A floating input, as after a reset, is called an output. -/
theorem C202_getDirection_counterexample : ¬ C202_full := by
  intro h
  exact absurd (h (fun _ => ⟨0x44444444, 0x44444444, 0⟩) 0 0 (by omega)) (by decide)

private theorem f1_mode (r : BitVec 32) (k : Nat) :
    r &&& (15#32 <<< (k * 4)) = (r.extractLsb' (4 * k) 4).setWidth 32 <<< (4 * k) := by
  have hb : ∀ j, (15#32).getLsbD j = decide (j < 4) := by
    intro j
    by_cases hj : j < 4
    · have : j = 0 ∨ j = 1 ∨ j = 2 ∨ j = 3 := by omega
      rcases this with rfl | rfl | rfl | rfl <;> decide
    · rw [BitVec.getLsbD_ofNat]
      have : Nat.testBit 15 j = false :=
        Nat.testBit_lt_two_pow (Nat.lt_of_lt_of_le (by omega : 15 < 2 ^ 4) (Nat.pow_le_pow_right (by omega) (by omega)))
      simp [this, hj]
  apply BitVec.eq_of_getLsbD_eq
  intro i hi
  rw [BitVec.getLsbD_and, BitVec.getLsbD_shiftLeft, BitVec.getLsbD_shiftLeft, BitVec.getLsbD_setWidth,
    BitVec.getLsbD_extractLsb', hb, Nat.mul_comm k 4]
  by_cases h1 : i < 4 * k
  · simp [h1]
  · have e : 4 * k + (i - 4 * k) = i := by omega
    by_cases h2 : i - 4 * k < 4
    · have h3 : i - 4 * k < 32 := by omega
      simp only [hi, h1, h2, h3, e, decide_true, decide_false, Bool.not_false, Bool.and_true, Bool.true_and]
    · simp [h1, h2]

/-- What `getDirection()` tells: 0 (analog) and fields above 9 (alternate functions but that with push-pull and 10 MHz)
are special, all other fields are called outputs: no pin is ever called an input. -/
theorem C202_getDirection_partial (s : Nat → F1.Port) (port k : Nat) (hk : k < 16) :
    F1.getDirection port k s =
      (if f1Field (s port) k = 0 ∨ f1Field (s port) k > 9 then .special else .output) := by
  have key : ∀ (r : BitVec 32) (j : Nat), j < 8 →
      ((r &&& (15#32 <<< (j * 4)) = 0#32 ↔ r.extractLsb' (4 * j) 4 = 0) ∧
       (r &&& (15#32 <<< (j * 4)) > 9#32 <<< (j * 4) ↔ r.extractLsb' (4 * j) 4 > 9)) := by
    intro r j hj
    rw [f1_mode r j, Nat.mul_comm j 4]
    generalize r.extractLsb' (4 * j) 4 = f
    have : j = 0 ∨ j = 1 ∨ j = 2 ∨ j = 3 ∨ j = 4 ∨ j = 5 ∨ j = 6 ∨ j = 7 := by omega
    rcases this with rfl | rfl | rfl | rfl | rfl | rfl | rfl | rfl <;> revert f <;> decide
  unfold F1.getDirection F1.gcr f1Field
  by_cases h : k < 8
  · have e : k % 8 = k := by omega
    obtain ⟨h1, h2⟩ := key (s port).crl k h
    simp only [h, if_true, e, h1, h2]
    by_cases hz : (s port).crl.extractLsb' (4 * k) 4 = 0
    · simp [hz]
    · have : (s port).crl &&& (15#32 <<< (k * 4)) > 0#32 := by
        have h3 : (s port).crl &&& (15#32 <<< (k * 4)) ≠ 0#32 := fun h0 => hz (h1.mp h0)
        rw [gt_iff_lt, BitVec.lt_def]
        have h4 : (_ : BitVec 32).toNat ≠ (0#32).toNat := fun h4 => h3 (BitVec.eq_of_toNat_eq h4)
        exact Nat.pos_of_ne_zero h4
      simp [this]
  · have e : k % 8 = k - 8 := by omega
    obtain ⟨h1, h2⟩ := key (s port).crh (k - 8) (by omega)
    simp only [h, if_false, e, h1, h2]
    by_cases hz : (s port).crh.extractLsb' (4 * (k - 8)) 4 = 0
    · simp [hz]
    · have : (s port).crh &&& (15#32 <<< ((k - 8) * 4)) > 0#32 := by
        have h3 : (s port).crh &&& (15#32 <<< ((k - 8) * 4)) ≠ 0#32 := fun h0 => hz (h1.mp h0)
        rw [gt_iff_lt, BitVec.lt_def]
        have h4 : (_ : BitVec 32).toNat ≠ (0#32).toNat := fun h4 => h3 (BitVec.eq_of_toNat_eq h4)
        exact Nat.pos_of_ne_zero h4
      simp [this]

/-- So it is right for outputs, for analog pins and for alternate functions but for those with push-pull and
10 MHz. -/
theorem C202_right_partial (s : Nat → F1.Port) (port k : Nat) (hk : k < 16)
    (h : f1Direction (f1Field (s port) k) ≠ .input) (h9 : f1Field (s port) k ≠ 9) :
    F1.getDirection port k s = f1Direction (f1Field (s port) k) := by
  rw [C202_getDirection_partial s port k hk]
  generalize f1Field (s port) k = f at h h9 ⊢
  revert f
  decide

example : f1Direction 3 = .output ∧ f1Direction 0xb = .special ∧ f1Direction 0 = .special ∧ f1Direction 9 = .special ∧
    f1Direction 8 = .input := by decide

/-- C203: an output configured as open-drain stays open-drain when it is set, reset or made an output again. -/
def C203_full : Prop :=
  ∀ (gs : List Pin) (s : Nat → F1.Port) (c : F1.Call) (port k : Nat), k < 16 → has gs port k →
    (c = .setOutput ∨ (∃ b, c = .setOutputStatus b) ∨ c = .set ∨ c = .reset) →
    (f1Field (s port) k).extractLsb' 0 2 ≠ 0 → (f1Field (s port) k).getLsbD 2 = true →
    (f1Field (F1.step gs c s port) k).getLsbD 2 = true

/-- On the F1 `setOutput()` makes it a push-pull output. -/
theorem C203_f1_counterexample : ¬ C203_full := by
  intro h
  exact absurd (h [⟨0, 0, false⟩] (fun _ => ⟨7, 0, 0⟩) .setOutput 0 0 (by omega) (by decide) (Or.inl rfl) (by decide)
    (by decide)) (by decide)

/-- `set()` and `reset()` keep it on the F1, and the other families keep it with `setOutput()`, too. -/
theorem C203_openDrain_partial :
    (∀ (gs : List Pin) (s : Nat → F1.Port) (c : F1.Call) (port k : Nat), k < 16 → (c = .set ∨ c = .reset) →
      f1Field (F1.step gs c s port) k = f1Field (s port) k) ∧
    (∀ (gs : List Pin) (s : Nat → Stm32.Port) (c : Stm32.Call) (port k : Nat), k < 16 →
      (c = .setOutput ∨ (∃ b, c = .setOutputStatus b) ∨ (∃ b, c = .setStatus b) ∨ c = .set ∨ c = .reset ∨ c = .toggle) →
      (stm32Pin (Stm32.step gs c s port) k).openDrain = (stm32Pin (s port) k).openDrain) := by
  constructor
  · intro gs s c port k hk hc
    have h := congrArg Prod.fst (C201_f1_call gs c (by rcases hc with rfl | rfl <;> trivial) s port k hk)
    rcases hc with rfl | rfl <;> by_cases hh : has gs port k <;> simpa [hh, f1Hear] using h
  · intro gs s c port k hk hc
    rw [C199_stm32_call gs c s port k hk]
    rcases hc with rfl | ⟨b, rfl⟩ | ⟨b, rfl⟩ | rfl | rfl | rfl <;> by_cases hh : has gs port k <;>
      simp [hh, Stm32Pin.hear]

example : (stm32Pin (Stm32.step exampleSet .setOutput (fun _ => ⟨0, 0xffff, 0, 0, 0⟩) 0) 3) =
    ⟨1, true, 0, 0, false⟩ := by decide

/-! ### C204: the AVR -/

private theorem avr_onPorts (gs : List Pin) (f : Nat → Avr.Port → Avr.Port) (s : Nat → Avr.Port)
    (port k : Nat) (hk : k < 8) (q : AvrPin)
    (h1 : has gs port k → avrPin (f port (s port)) k = q)
    (h2 : ¬ has gs port k → avrPin (f port (s port)) k = avrPin (s port) k) :
    avrPin (onPorts 8 gs f s port) k = if has gs port k then q else avrPin (s port) k := by
  unfold onPorts
  split
  · rename_i h
    rw [if_neg (mask_zero 8 gs port k hk h)]
  · split
    · rename_i h; exact h1 h
    · rename_i h; exact h2 h

private theorem not_inverts (gs : List Pin) (port k : Nat) (h : ¬ has gs port k) : inverts gs port k = false := by
  rw [Bool.eq_false_iff]; exact fun h2 => h (has_of_inverts _ _ _ h2)

private theorem avr_setOutput (pue : Bool) (gs : List Pin) (s : Nat → Avr.Port) (port k : Nat) (hk : k < 8) :
    avrPin (Avr.setOutput pue gs s port) k =
      if has gs port k then { avrPin (s port) k with out := true, pull := if pue then false else (avrPin (s port) k).pull }
      else avrPin (s port) k := by
  apply avr_onPorts gs _ s port k hk <;> intro h <;> cases pue <;>
    simp [avrPin, mask_bit _ _ _ _ hk, h, hk, -BitVec.getLsbD_eq_getElem]

private theorem avr_set (gs : List Pin) (s : Nat → Avr.Port) (port k : Nat) (hk : k < 8) :
    avrPin (Avr.set gs s port) k =
      if has gs port k then { avrPin (s port) k with bit := !inverts gs port k } else avrPin (s port) k := by
  apply avr_onPorts gs _ s port k hk <;> intro h
  · simp [avrPin, mask_bit _ _ _ _ hk, inverted_bit _ _ _ _ hk, h, hk, -BitVec.getLsbD_eq_getElem]
  · simp [avrPin, mask_bit _ _ _ _ hk, inverted_bit _ _ _ _ hk, h, not_inverts _ _ _ h, hk,
      -BitVec.getLsbD_eq_getElem]

private theorem avr_reset (gs : List Pin) (s : Nat → Avr.Port) (port k : Nat) (hk : k < 8) :
    avrPin (Avr.reset gs s port) k =
      if has gs port k then { avrPin (s port) k with bit := inverts gs port k } else avrPin (s port) k := by
  apply avr_onPorts gs _ s port k hk <;> intro h
  · simp [avrPin, mask_bit _ _ _ _ hk, inverted_bit _ _ _ _ hk, h, hk, -BitVec.getLsbD_eq_getElem]
  · simp [avrPin, mask_bit _ _ _ _ hk, inverted_bit _ _ _ _ hk, h, not_inverts _ _ _ h, hk,
      -BitVec.getLsbD_eq_getElem]

private theorem avr_toggle (gs : List Pin) (s : Nat → Avr.Port) (port k : Nat) (hk : k < 8) :
    avrPin (Avr.toggle gs s port) k =
      if has gs port k then { avrPin (s port) k with bit := !(avrPin (s port) k).bit } else avrPin (s port) k := by
  apply avr_onPorts gs _ s port k hk <;> intro h <;>
    simp [avrPin, mask_bit _ _ _ _ hk, h, -BitVec.getLsbD_eq_getElem]

private theorem avr_setInput (gs : List Pin) (s : Nat → Avr.Port) (port k : Nat) (hk : k < 8) :
    avrPin (Avr.setInput gs s port) k =
      if has gs port k then { avrPin (s port) k with out := false } else avrPin (s port) k := by
  apply avr_onPorts gs _ s port k hk <;> intro h <;>
    simp [avrPin, mask_bit _ _ _ _ hk, h, hk, -BitVec.getLsbD_eq_getElem]

private theorem avr_configureInput (pue : Bool) (gs : List Pin) (up : Bool) (s : Nat → Avr.Port) (port k : Nat)
    (hk : k < 8) :
    avrPin (Avr.configureInput pue gs up s port) k =
      if has gs port k then
        (if pue then { avrPin (s port) k with pull := up } else { avrPin (s port) k with bit := up })
      else avrPin (s port) k := by
  apply avr_onPorts gs _ s port k hk <;> intro h <;> cases pue <;> cases up <;>
    simp [avrPin, mask_bit _ _ _ _ hk, h, hk, -BitVec.getLsbD_eq_getElem]

/-- C204, one call. -/
theorem C204_avr_call (pue : Bool) (gs : List Pin) (c : Avr.Call) (s : Nat → Avr.Port) (port k : Nat) (hk : k < 8) :
    avrPin (Avr.step pue gs c s port) k =
      if has gs port k then (avrPin (s port) k).hear pue (inverts gs port k) c else avrPin (s port) k := by
  cases c with
  | setOutputStatus b =>
      have h2 : avrPin ((if b then Avr.set gs s else Avr.reset gs s) port) k =
          if has gs port k then { avrPin (s port) k with bit := b != inverts gs port k } else avrPin (s port) k := by
        cases b
        · simp [avr_reset gs s port k hk]
        · simp [avr_set gs s port k hk]
      simp only [Avr.step, AvrPin.hear, avr_setOutput _ _ _ _ _ hk, h2]
      by_cases h : has gs port k <;> simp [h]
  | _ =>
      simp only [Avr.step, AvrPin.hear, avr_setOutput _ _ _ _ _ hk, avr_set _ _ _ _ hk, avr_reset _ _ _ _ hk,
        avr_toggle _ _ _ _ hk, avr_setInput _ _ _ _ hk, avr_configureInput _ _ _ _ _ _ hk]
      try (by_cases h : has gs port k <;> simp [h])

/-- C204: whatever calls are made for whatever sets of pins, each pin is as if it had been told on its own what the
sets it belongs to were told. -/
theorem C204_avr (pue : Bool) (l : List (List Pin × Avr.Call)) (s : Nat → Avr.Port) (port k : Nat) (hk : k < 8) :
    avrPin (Avr.run pue l s port) k = avrAfter pue port k l (avrPin (s port) k) := by
  induction l using List.reverseRecOn with
  | nil => rfl
  | append_singleton l c ih =>
      have h1 : Avr.run pue (l ++ [c]) s = Avr.step pue c.1 c.2 (Avr.run pue l s) := by simp [Avr.run]
      have h2 : ∀ p, avrAfter pue port k (l ++ [c]) p = (if has c.1 port k then
          (avrAfter pue port k l p).hear pue (inverts c.1 port k) c.2 else avrAfter pue port k l p) := by
        intro p; simp [avrAfter]
      rw [h1, h2, C204_avr_call _ _ _ _ _ _ hk, ih]

/-- C204, `getDirection()`. -/
theorem C204_getDirection (s : Nat → Avr.Port) (port k : Nat) (hk : k < 8) :
    Avr.getDirection port k s = (if (avrPin (s port) k).out then .output else .input) := by
  unfold Avr.getDirection avrPin
  have : ((s port).ddr &&& bit 8 k ≠ 0#8) ↔ (s port).ddr.getLsbD k = true := by
    constructor
    · intro h
      by_contra hn
      apply h
      apply BitVec.eq_of_getLsbD_eq
      intro i hi
      rw [BitVec.getLsbD_and, bit_bit 8 k i hi]
      by_cases e : k = i
      · subst e; simp only [Bool.not_eq_true] at hn; simp [hn, -BitVec.getLsbD_eq_getElem]
      · simp [e]
    · intro h h0
      have := congrArg (fun x => BitVec.getLsbD x k) h0
      simp only [BitVec.getLsbD_and, bit_bit 8 k k hk, h] at this
      simp at this
  simp only [this]

example : Avr.run false [([⟨1, 2, true⟩, ⟨1, 7, false⟩], .setOutputStatus true), ([⟨1, 2, false⟩], .setInputType true)]
    (fun _ => ⟨0, 0x0f, 0⟩) 1 = ⟨0x80, 0x8f, 0⟩ ∧
    avrAfter false 1 2 [([⟨1, 2, true⟩, ⟨1, 7, false⟩], .setOutputStatus true), ([⟨1, 2, false⟩], .setInputType true)]
      ⟨false, true, false⟩ = ⟨false, true, false⟩ := by decide

/-! ### C205: interrupts -/

/-- C205: whatever an interrupt does to other pins during a call for a set of pins stays done. -/
def C205_full : Prop :=
  (∀ (isr : Stm32.Port → Stm32.Port) (gs : List Pin) (s : Nat → Stm32.Port) (port k : Nat), k < 16 →
    (∃ j < 16, has gs port j) → ¬ has gs port k →
    stm32Pin (Stm32.toggleI isr gs s port) k = stm32Pin (isr (s port)) k ∧
    stm32Pin (Stm32.setOutputI isr gs s port) k = stm32Pin (isr (s port)) k) ∧
  (∀ (isr : Avr.Port → Avr.Port) (gs : List Pin) (s : Nat → Avr.Port) (port k : Nat), k < 8 →
    (∃ j < 8, has gs port j) → ¬ has gs port k →
    avrPin (Avr.setI isr gs s port) k = avrPin (isr (s port)) k)

/-- The AVR reads `PORT` and writes it back: an interrupt that sets pin 1 in between finds it reset. -/
theorem C205_avr_counterexample : ¬ C205_full := by
  intro h
  exact absurd (h.2 (fun p => { p with port := p.port ||| 2 }) [⟨0, 0, false⟩] (fun _ => ⟨3, 0, 0⟩) 0 1 (by omega)
    ⟨0, by omega, by decide⟩ (by decide)) (by decide)

/-- So does the STM32 with `MODER`: an interrupt that makes pin 1 an input in between finds it an output. -/
theorem C205_stm32_counterexample : ¬ C205_full := by
  intro h
  exact absurd (h.1 (fun p => { p with moder := p.moder &&& ~~~ 0xc#32 }) [⟨0, 0, false⟩] (fun _ => ⟨4, 0, 0, 0, 0⟩) 0 1
    (by omega) ⟨0, by omega, by decide⟩ (by decide)).2 (by decide)

/-- What holds: the levels of other pins of the STM32, which are never written back; `set()`, `reset()` and the ports
write `BSRR` once without reading. -/
theorem C205_stm32_levels_partial (isr : Stm32.Port → Stm32.Port) (gs : List Pin) (s : Nat → Stm32.Port) (port k : Nat)
    (hk : k < 16) (hs : ∃ j < 16, has gs port j) (hn : ¬ has gs port k) :
    stm32Pin (Stm32.toggleI isr gs s port) k = stm32Pin (isr (s port)) k := by
  obtain ⟨j, hj, hh⟩ := hs
  have hz : ¬ mask 16 gs port = 0#16 := fun h0 => mask_zero _ _ _ _ hj h0 hh
  unfold Stm32.toggleI onPorts
  simp [hz, stm32Pin, writeBsrr_bit _ _ _ hk, halves_low _ _ _ hk, halves_high _ _ _ hk, mask_bit _ _ _ _ hk, hn,
    -BitVec.getLsbD_eq_getElem]

/-- An interrupt that leaves `PORT` as it was does no harm on the AVR. -/
theorem C205_avr_partial (isr : Avr.Port → Avr.Port) (hi : ∀ p, (isr p).port = p.port) (gs : List Pin)
    (s : Nat → Avr.Port) (port k : Nat) (hk : k < 8) (hs : ∃ j < 8, has gs port j) (hn : ¬ has gs port k) :
    avrPin (Avr.setI isr gs s port) k = avrPin (isr (s port)) k := by
  obtain ⟨j, hj, hh⟩ := hs
  have hz : ¬ mask 8 gs port = 0#8 := fun h0 => mask_zero _ _ _ _ hj h0 hh
  unfold Avr.setI onPorts
  simp [hz, avrPin, mask_bit _ _ _ _ hk, inverted_bit _ _ _ _ hk, not_inverts _ _ _ hn, hn, hk, hi,
    -BitVec.getLsbD_eq_getElem]

example : (Stm32.toggleI (fun p => { p with odr := p.odr ^^^ 0x6 }) [⟨0, 0, false⟩] (fun _ => ⟨0, 0, 0, 0, 0x3⟩) 0).odr =
    0x4 := by decide

end Props.GpioPins
