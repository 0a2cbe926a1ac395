import Verif.Model.Register
import Verif.Spec.Register
import Mathlib.Tactic.ByContra

set_option autoImplicit false

/-! Properties C76 and C77: flags, configurations and values in a register. -/

namespace Props.Register

open Modm.Register Spec.Register

variable {w : Nat}

/-! ### C76: flags -/

/-- C76: `set`, `reset`, `toggle` and `update` change exactly the given bits. -/
theorem C76_change (r f : BitVec w) (b : Bool) (i : Nat) (hi : i < w) :
    (setFlags r f).getLsbD i = (r.getLsbD i || f.getLsbD i) ∧
      (reset r f).getLsbD i = (r.getLsbD i && !f.getLsbD i) ∧
      (toggle r f).getLsbD i = (if f.getLsbD i then !r.getLsbD i else r.getLsbD i) ∧
      (update r f b).getLsbD i = (if f.getLsbD i then b else r.getLsbD i) := by
  refine ⟨by simp [setFlags], by simp [reset, hi], ?_, ?_⟩
  · cases h : f.getLsbD i <;> simp [toggle, h]
  · cases b <;> cases h : f.getLsbD i <;> simp [update, setFlags, reset, -BitVec.getLsbD_eq_getElem, h, hi]

theorem and_ne_zero (r f : BitVec w) : r &&& f ≠ 0 ↔ ∃ i, i < w ∧ r.getLsbD i = true ∧ f.getLsbD i = true := by
  constructor
  · intro h
    by_contra hn
    apply h
    apply BitVec.eq_of_getLsbD_eq
    intro i hi
    simp only [BitVec.getLsbD_and, BitVec.ofNat_eq_ofNat, BitVec.getLsbD_zero]
    by_contra hc
    have : (r.getLsbD i && f.getLsbD i) = true := by simpa using hc
    rw [Bool.and_eq_true] at this
    exact hn ⟨i, hi, this⟩
  · rintro ⟨i, hi, h1, h2⟩ h
    have := congrArg (fun x => x.getLsbD i) h
    simp [h1, h2] at this

/-- C76: `all`, `any` and `none` ask about exactly the given bits. -/
theorem C76_ask (r f : BitVec w) :
    (all r f = true ↔ ∀ i, i < w → f.getLsbD i = true → r.getLsbD i = true) ∧
      (any r f = true ↔ ∃ i, i < w ∧ r.getLsbD i = true ∧ f.getLsbD i = true) ∧
      (noneOf r f = true ↔ ∀ i, i < w → f.getLsbD i = true → r.getLsbD i = false) := by
  refine ⟨?_, ?_, ?_⟩
  · rw [all, decide_eq_true_iff]
    constructor
    · intro h i _ hf
      have := congrArg (fun x => x.getLsbD i) h
      simpa [hf] using this
    · intro h
      apply BitVec.eq_of_getLsbD_eq
      intro i hi
      rw [BitVec.getLsbD_and]
      cases hf : f.getLsbD i
      · simp
      · simp [h i hi hf]
  · rw [any, decide_eq_true_iff]
    exact and_ne_zero r f
  · rw [noneOf, decide_eq_true_iff]
    constructor
    · intro h i hi hf
      by_contra hr
      exact (and_ne_zero r f).2 ⟨i, hi, by simpa using hr, hf⟩ h
    · intro h
      by_contra hn
      obtain ⟨i, hi, h1, h2⟩ := (and_ne_zero r f).1 hn
      rw [h i hi h2] at h1
      exact absurd h1 (by decide)

/-- C76: the overloads for an enum value ask for its bit. -/
theorem C76_ask_bit (r : BitVec w) (k : Nat) (hk : k < w) :
    allBit r (BitVec.twoPow w k) = r.getLsbD k ∧ noneBit r (BitVec.twoPow w k) = !r.getLsbD k := by
  have e : allBit r (BitVec.twoPow w k) = r.getLsbD k := by
    rw [allBit, Bool.eq_iff_iff, decide_eq_true_iff, and_ne_zero]
    constructor
    · rintro ⟨i, hi, h1, h2⟩
      rw [BitVec.getLsbD_twoPow] at h2
      simp only [Bool.and_eq_true, decide_eq_true_eq] at h2
      rw [h2.2]; exact h1
    · intro h
      exact ⟨k, hk, h, by simp [hk]⟩
  exact ⟨e, by rw [noneBit, ← e, allBit]⟩

/-- The overload of `all` for an enum value with two bits asks for any of them. -/
theorem C76_all_enum_of_two_bits_counterexample :
    allBit (0x01 : BitVec 8) 0x03 = true ∧ all (0x01 : BitVec 8) 0x03 = false := by decide

example : setFlags (0x05 : BitVec 8) 0x82 = 0x87 ∧ reset (0x87 : BitVec 8) 0x82 = 0x05 ∧
    toggle (0x05 : BitVec 8) 0x84 = 0x81 ∧ update (0x05 : BitVec 8) 0x0a true = 0x0f ∧
    all (0x05 : BitVec 8) 0x05 = true ∧ all (0x05 : BitVec 8) 0x07 = false ∧
    any (0x05 : BitVec 8) 0x07 = true ∧ noneOf (0x05 : BitVec 8) 0xa = true := by decide

/-! ### C77: fields -/

theorem mask_bit (v : Value) (i : Nat) (hi : i < w) :
    (v.mask w).getLsbD i = decide (v.position ≤ i ∧ i < v.position + v.width) := by
  unfold Value.mask
  rw [BitVec.getLsbD_ofNat, Nat.one_shiftLeft, Nat.testBit_shiftLeft, Nat.testBit_two_pow_sub_one]
  simp only [hi, decide_true, Bool.true_and, ge_iff_le]
  rw [← Bool.decide_and]
  congr 1
  rw [eq_iff_iff]
  omega

theorem get_bit (v : Value) (r : BitVec w) (i : Nat) :
    (v.get r).getLsbD i = (r.getLsbD (v.position + i) && decide (i < v.width)) := by
  unfold Value.get
  rw [BitVec.getLsbD_ushiftRight, BitVec.getLsbD_and]
  by_cases hi : v.position + i < w
  · rw [mask_bit v _ hi]
    congr 2
    rw [eq_iff_iff]
    omega
  · rw [BitVec.getLsbD_of_ge _ _ (by omega)]
    simp

/-- C77: `get` reads the number in the field. -/
theorem C77_value_get (v : Value) (r : BitVec w) :
    (v.get r).toNat = field r.toNat v.position v.width := by
  apply Nat.eq_of_testBit_eq
  intro i
  rw [field, Nat.testBit_mod_two_pow, Nat.testBit_div_two_pow]
  have := get_bit v r i
  rw [BitVec.getLsbD, BitVec.getLsbD] at this
  rw [this, Bool.and_comm, Nat.add_comm]

theorem set_bit (v : Value) (r c : BitVec w) (i : Nat) (hi : i < w) :
    (v.set r c).getLsbD i =
      if v.position ≤ i ∧ i < v.position + v.width then c.getLsbD (i - v.position) else r.getLsbD i := by
  unfold Value.set
  rw [BitVec.getLsbD_or, BitVec.getLsbD_and, BitVec.getLsbD_not, BitVec.getLsbD_and,
    BitVec.getLsbD_shiftLeft, mask_bit v i hi]
  by_cases h : v.position ≤ i ∧ i < v.position + v.width
  · have : ¬ i < v.position := by omega
    simp [h, hi, this]
  · rw [if_neg h, decide_eq_false h]
    simp [hi]

/-- C77: after `set`, `get` gives the value, cut to the width of the field, and no bit outside of the field
has changed. -/
theorem C77_value_set (v : Value) (r c : BitVec w) (hp : v.position + v.width ≤ w) :
    (v.get (v.set r c)).toNat = c.toNat % 2 ^ v.width ∧
      ∀ i, i < w → ¬(v.position ≤ i ∧ i < v.position + v.width) →
        (v.set r c).getLsbD i = r.getLsbD i := by
  refine ⟨?_, ?_⟩
  · apply Nat.eq_of_testBit_eq
    intro i
    have h := get_bit v (v.set r c) i
    rw [BitVec.getLsbD] at h
    rw [h, Nat.testBit_mod_two_pow]
    by_cases hi : i < v.width
    · rw [set_bit v r c _ (by omega), if_pos (by omega), Nat.add_sub_cancel_left]
      simp [hi, BitVec.getLsbD]
    · simp [hi]
  · intro i hi h
    rw [set_bit v r c i hi, if_neg h]

/-- C77: setting a field does not change what another field reads, and fields can be set in any order. -/
theorem C77_value_independent (u v : Value) (r c d : BitVec w) (hu : u.position + u.width ≤ w)
    (h : u.position + u.width ≤ v.position ∨ v.position + v.width ≤ u.position) :
    u.get (v.set r c) = u.get r ∧ v.set (u.set r d) c = u.set (v.set r c) d := by
  refine ⟨?_, ?_⟩
  · apply BitVec.eq_of_getLsbD_eq
    intro i _
    rw [get_bit u _ i, get_bit u _ i]
    by_cases hw : i < u.width
    · rw [set_bit v r c _ (by omega), if_neg (by omega)]
    · simp [hw]
  · apply BitVec.eq_of_getLsbD_eq
    intro i hi
    rw [set_bit v _ _ i hi, set_bit u _ _ i hi, set_bit u _ _ i hi, set_bit v _ _ i hi]
    by_cases h1 : v.position ≤ i ∧ i < v.position + v.width
    · rw [if_pos h1, if_neg (by omega), if_pos h1]
    · rw [if_neg h1, if_neg h1]

/-- C77: `reset` sets the field to zero, and the value object is the field of an empty register. -/
theorem C77_value_reset (v : Value) (r c : BitVec w) :
    v.reset r = v.set r 0 ∧ v.make c = v.set 0 c := by
  simp [Value.reset, Value.set, Value.make]

example : (Value.set ⟨3, 1⟩ (0xff : BitVec 8) 0x2a) = 0xf5 ∧ (Value.get ⟨3, 1⟩ (0xf5 : BitVec 8)) = 2 ∧
    (Value.set ⟨2, 5⟩ (Value.set ⟨3, 1⟩ (0xff : BitVec 8) 0x2a) 1) = 0xb5 := by decide

theorem config_bit (c : Configuration w) (r x : BitVec w) (i : Nat) (hi : i < w) :
    (c.set r x).getLsbD i = ((r.getLsbD i && !(decide (c.position ≤ i) && c.mask.getLsbD (i - c.position))) ||
      (decide (c.position ≤ i) && x.getLsbD (i - c.position))) := by
  unfold Configuration.set
  by_cases h : c.position ≤ i
  · have : ¬ i < c.position := by omega
    simp [-BitVec.getLsbD_eq_getElem, hi, h, this]
  · have : i < c.position := by omega
    simp [-BitVec.getLsbD_eq_getElem, hi, h, this]

theorem config_get_bit (c : Configuration w) (r : BitVec w) (i : Nat) (hi : i + c.position < w) :
    (c.get r).getLsbD i = (r.getLsbD (c.position + i) && c.mask.getLsbD i) := by
  unfold Configuration.get
  have h1 : c.position + i < w := by omega
  have h2 : ¬ c.position + i < c.position := by omega
  simp [-BitVec.getLsbD_eq_getElem, h1, h2]

/-- C77, configurations: if the enum value lies within the mask, `set` makes `get` return it and changes
no other bit.  Missing: an enum value with bits outside of the mask. -/
theorem C77_configuration_partial (c : Configuration w) (r x : BitVec w)
    (hm : ∀ i, i < w → c.mask.getLsbD i = true → i + c.position < w)
    (hx : ∀ i, i < w → x.getLsbD i = true → c.mask.getLsbD i = true) :
    c.get (c.set r x) = x ∧
      (∀ i, i < w → (i < c.position ∨ c.mask.getLsbD (i - c.position) = false) →
        (c.set r x).getLsbD i = r.getLsbD i) ∧
      c.reset r = c.set r 0 := by
  refine ⟨?_, ?_, by simp [Configuration.reset, Configuration.set]⟩
  · apply BitVec.eq_of_getLsbD_eq
    intro i hi
    by_cases hp : i + c.position < w
    · rw [config_get_bit c _ i hp, config_bit c r x _ (by omega), Nat.add_sub_cancel_left]
      cases hxi : x.getLsbD i
      · cases c.mask.getLsbD i <;> simp
      · simp [hx i hi hxi]
    · have h1 : x.getLsbD i = false := by
        by_contra h
        exact hp (hm i hi (hx i hi (by simpa using h)))
      rw [h1, Configuration.get, BitVec.getLsbD_ushiftRight, BitVec.getLsbD_of_ge _ _ (by omega)]
  · intro i hi h
    rw [config_bit c r x i hi]
    rcases h with h | h
    · have : ¬ c.position ≤ i := by omega
      simp [this]
    · have hxi : x.getLsbD (i - c.position) = false := by
        by_contra hc
        have := hx (i - c.position) (by omega) (by simpa using hc)
        rw [h] at this
        exact absurd this (by decide)
      simp [h, hxi]

example : (Configuration.set ⟨0x30, 2⟩ (0xff : BitVec 8) 0x10) = 0x7f ∧
    (Configuration.get ⟨0x30, 2⟩ (0x7f : BitVec 8)) = 0x10 := by decide

/-- C77 is false for configurations: `Configuration::set` does not mask the new value (as `Value::set`
does), so that an enum value outside of the mask changes the neighbouring bits. -/
theorem C77_configuration_counterexample :
    Configuration.set ⟨0x03, 4⟩ (0x00 : BitVec 8) 0x05 = 0x50 ∧
      Configuration.get ⟨0x03, 4⟩ (0x50 : BitVec 8) = 0x01 := by decide

end Props.Register
