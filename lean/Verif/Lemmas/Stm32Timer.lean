import Verif.Spec.Stm32Timer
import Mathlib.Tactic.IntervalCases
import Mathlib.Tactic.Ring

set_option autoImplicit false

namespace Stm32TimerLemmas

open Modm.Stm32Timer Stm32TimerSpec

/-! ## Time base -/

theorem after_eq (b : Base) (h : 0 < b.arr) (n : Nat) :
    after b n = ⟨n % (b.psc + 1), n / (b.psc + 1) % (b.arr + 1)⟩ := by
  induction n with
  | zero => simp [after]
  | succ n ih =>
      have ha : b.arr ≠ 0 := by omega
      simp only [after, tick, if_neg ha, ih]
      have hm : n % (b.psc + 1) < b.psc + 1 := Nat.mod_lt _ (by omega)
      have hd := Nat.div_add_mod n (b.psc + 1)
      by_cases h1 : n % (b.psc + 1) < b.psc
      · rw [if_pos h1]
        have e1 : (n + 1) % (b.psc + 1) = n % (b.psc + 1) + 1 := by
          rw [Nat.add_mod, Nat.mod_eq_of_lt (a := 1) (by omega), Nat.mod_eq_of_lt (by omega)]
        have e2 : (n + 1) / (b.psc + 1) = n / (b.psc + 1) := by
          rw [Nat.succ_div, if_neg]
          · simp
          · intro hdv
            have := Nat.mod_eq_zero_of_dvd hdv
            omega
        rw [e1, e2]
      · rw [if_neg h1]
        have hdv : (b.psc + 1) ∣ (n + 1) := by
          refine ⟨n / (b.psc + 1) + 1, ?_⟩
          rw [Nat.mul_add]
          omega
        have e1 : (n + 1) % (b.psc + 1) = 0 := Nat.mod_eq_zero_of_dvd hdv
        have e2 : (n + 1) / (b.psc + 1) = n / (b.psc + 1) + 1 := by rw [Nat.succ_div, if_pos hdv]
        rw [e1, e2]
        have hq : n / (b.psc + 1) % (b.arr + 1) < b.arr + 1 := Nat.mod_lt _ (by omega)
        by_cases h2 : n / (b.psc + 1) % (b.arr + 1) < b.arr
        · rw [if_pos h2]
          have : (n / (b.psc + 1) + 1) % (b.arr + 1) = n / (b.psc + 1) % (b.arr + 1) + 1 := by
            rw [Nat.add_mod, Nat.mod_eq_of_lt (a := 1) (by omega), Nat.mod_eq_of_lt (by omega)]
          rw [this]
        · rw [if_neg h2]
          have e : n / (b.psc + 1) % (b.arr + 1) = b.arr := by omega
          have : (n / (b.psc + 1) + 1) % (b.arr + 1) = 0 := by
            rw [Nat.add_mod, Nat.mod_eq_of_lt (a := 1) (by omega), e, Nat.mod_self]
          rw [this]

/-- Update events come every `(PSC + 1) * (ARR + 1)` cycles. -/
theorem hasPeriod (b : Base) (h : 0 < b.arr) : HasPeriod b ((b.psc + 1) * (b.arr + 1)) := by
  intro n
  cases n with
  | zero => simp [updateAt]
  | succ k =>
      have ha : b.arr ≠ 0 := by omega
      simp only [updateAt, tick, if_neg ha, after_eq b h]
      have hm : k % (b.psc + 1) < b.psc + 1 := Nat.mod_lt _ (by omega)
      have hq : k / (b.psc + 1) % (b.arr + 1) < b.arr + 1 := Nat.mod_lt _ (by omega)
      have hd := Nat.div_add_mod k (b.psc + 1)
      have hd2 := Nat.div_add_mod (k / (b.psc + 1)) (b.arr + 1)
      constructor
      · intro hu
        refine ⟨by omega, ?_⟩
        by_cases h1 : k % (b.psc + 1) < b.psc
        · simp [h1] at hu
        · by_cases h2 : k / (b.psc + 1) % (b.arr + 1) < b.arr
          · simp [h1, h2] at hu
          · have e1 : k % (b.psc + 1) = b.psc := by omega
            have e2 : k / (b.psc + 1) % (b.arr + 1) = b.arr := by omega
            refine ⟨k / (b.psc + 1) / (b.arr + 1) + 1, ?_⟩
            rw [e1] at hd
            rw [e2] at hd2
            calc k + 1 = (b.psc + 1) * (k / (b.psc + 1)) + (b.psc + 1) := by omega
              _ = (b.psc + 1) * (k / (b.psc + 1) + 1) := by ring
              _ = (b.psc + 1) * ((b.arr + 1) * (k / (b.psc + 1) / (b.arr + 1)) + b.arr + 1) := by rw [hd2]
              _ = _ := by ring
      · rintro ⟨-, m, hm'⟩
        have hmpos : 0 < m := by
          rcases Nat.eq_zero_or_pos m with h0 | h0
          · subst h0
            simp at hm'
          · exact h0
        obtain ⟨j, rfl⟩ : ∃ j, m = j + 1 := ⟨m - 1, by omega⟩
        have hk : k = (b.psc + 1) * ((b.arr + 1) * j + b.arr) + b.psc := by
          have : (b.psc + 1) * (b.arr + 1) * (j + 1) = (b.psc + 1) * ((b.arr + 1) * j + b.arr) + b.psc + 1 := by ring
          omega
        have e1 : k % (b.psc + 1) = b.psc := by
          rw [hk, Nat.mul_add_mod]
          exact Nat.mod_eq_of_lt (by omega)
        have e2 : k / (b.psc + 1) = (b.arr + 1) * j + b.arr := by
          rw [hk, Nat.mul_add_div (by omega), Nat.div_eq_of_lt (by omega : b.psc < b.psc + 1)]
          omega
        have e3 : k / (b.psc + 1) % (b.arr + 1) = b.arr := by
          rw [e2, Nat.mul_add_mod]
          exact Nat.mod_eq_of_lt (by omega)
        simp [e1, e3]

/-- A timer has at most one period. -/
theorem period_unique (b : Base) (p q : Nat) (hp : HasPeriod b p) (hq : HasPeriod b q) (hpp : 0 < p) (hqq : 0 < q) : p = q := by
  have h1 := (hp p).2 ⟨hpp, dvd_refl p⟩
  have h2 := (hq q).2 ⟨hqq, dvd_refl q⟩
  exact Nat.dvd_antisymm ((hp q).1 h2).2 ((hq p).1 h1).2

/-- A counter with `ARR = 0` is blocked. -/
theorem blocked (b : Base) (h : b.arr = 0) (n : Nat) : updateAt b n = false := by
  cases n with
  | zero => rfl
  | succ n => simp [updateAt, tick, h]

theorem prescaler16 (c : Nat) (h1 : 1 ≤ c) (h2 : c ≤ 65535 * 65535) :
    prescalerOf .w16 c = (c + 65534) / 65535 ∧ 1 ≤ (c + 65534) / 65535 ∧ (c + 65534) / 65535 ≤ 65535 := by
  simp only [prescalerOf, Width.max]
  omega

theorem prescaler32 (c : Nat) (h1 : 1 ≤ c) (h2 : c < 2 ^ 32) : prescalerOf .w32 c = 1 := by
  simp only [prescalerOf, Width.max]
  omega

/-! ## Channels -/

theorem merge_get (old flags mask : Word) (off i : Nat) (hi : i < 32) :
    (merge old flags mask off).getLsbD i =
      ((decide (off ≤ i) && flags.getLsbD (i - off)) || (old.getLsbD i && !(decide (off ≤ i) && mask.getLsbD (i - off)))) := by
  unfold merge
  simp only [BitVec.getLsbD_or, BitVec.getLsbD_and, BitVec.getLsbD_not, BitVec.getLsbD_shiftLeft, hi, decide_true, Bool.true_and]
  by_cases h : i < off
  · have : ¬ off ≤ i := by omega
    simp [h, this]
  · have : off ≤ i := by omega
    simp [h, this]

theorem ff_get (j : Nat) : (0xff : Word).getLsbD j = decide (j < 8) := by
  by_cases h : j < 32
  · interval_cases j <;> rfl
  · rw [BitVec.getLsbD_of_ge _ _ (by omega)]
    simp
    omega

theorem f_get (j : Nat) : (0xf : Word).getLsbD j = decide (j < 4) := by
  by_cases h : j < 32
  · interval_cases j <;> rfl
  · rw [BitVec.getLsbD_of_ge _ _ (by omega)]
    simp
    omega

theorem f0_get (j : Nat) : (0xf0 : Word).getLsbD j = decide (4 ≤ j ∧ j < 8) := by
  by_cases h : j < 32
  · interval_cases j <;> rfl
  · rw [BitVec.getLsbD_of_ge _ _ (by omega)]
    simp
    omega

theorem oc1m_get (j : Nat) : oc1m.getLsbD j = decide (j = 4 ∨ j = 5 ∨ j = 6 ∨ j = 16) := by
  by_cases h : j < 32
  · interval_cases j <;> rfl
  · rw [BitVec.getLsbD_of_ge _ _ (by omega)]
    simp
    omega

theorem oc1pe_get (j : Nat) : oc1pe.getLsbD j = decide (j = 3) := by
  by_cases h : j < 32
  · interval_cases j <;> rfl
  · rw [BitVec.getLsbD_of_ge _ _ (by omega)]
    simp
    omega

/-- The constant of a mode has the bits of its number. -/
theorem value_get (m : Mode) (j : Nat) :
    m.value.getLsbD j = (decide (j = 4) && (number m).testBit 0 || decide (j = 5) && (number m).testBit 1 ||
      decide (j = 6) && (number m).testBit 2 || decide (j = 16) && (number m).testBit 3) := by
  by_cases h : j < 32
  · have key : ∀ j : Fin 32, m.value.getLsbD j = (decide (j.val = 4) && (number m).testBit 0 || decide (j.val = 5) && (number m).testBit 1 ||
      decide (j.val = 6) && (number m).testBit 2 || decide (j.val = 16) && (number m).testBit 3) := by
      cases m <;> decide +kernel
    exact key ⟨j, h⟩
  · rw [BitVec.getLsbD_of_ge _ _ (by omega)]
    have h4 : j ≠ 4 := by omega
    have h5 : j ≠ 5 := by omega
    have h6 : j ≠ 6 := by omega
    have h16 : j ≠ 16 := by omega
    simp [h4, h5, h6, h16]

/-- The bits of the channels after `updateCcmr`, for flags in the bits of a channel. -/
theorem updateCcmr_bit (ext : Bool) (r : Regs) (flags mask : Word) (c c' k : Nat)
    (hc : 1 ≤ c) (hc2 : c ≤ channels ext) (hc' : 1 ≤ c') (hc2' : c' ≤ 6) (hk : Own k)
    (hf : ∀ j, ¬ Own j → flags.getLsbD j = false) (hm : ∀ j, ¬ Own j → mask.getLsbD j = false) :
    bit (updateCcmr ext r (c - 1) flags mask) c' k =
      if c' = c then (flags.getLsbD k || (bit r c k && !mask.getLsbD k)) else bit r c' k := by
  have hk' : k < 17 := by unfold Own at hk; omega
  have n8 : ∀ j, 8 ≤ j → j ≠ 16 → flags.getLsbD j = false ∧ mask.getLsbD j = false := by
    intro j h1 h2
    have : ¬ Own j := by unfold Own; omega
    exact ⟨hf j this, hm j this⟩
  have e16 : ¬ Own 8 := by unfold Own; omega
  have e24 : ¬ Own 24 := by unfold Own; omega
  have kcase : (k < 8) ∨ k = 16 := hk
  have c6 : c ≤ 6 := by unfold channels at hc2; split at hc2 <;> omega
  have cext : ext = false → c ≤ 4 := by
    intro h
    simp only [channels, h] at hc2
    simpa using hc2
  unfold bit ccmr base updateCcmr
  have hlow : ∀ (old : Word), (merge old flags mask 0).getLsbD k = (flags.getLsbD k || (old.getLsbD k && !mask.getLsbD k)) := by
    intro old
    rw [merge_get _ _ _ _ _ (by omega)]
    simp
  have hlow8 : ∀ (old : Word), (merge old flags mask 0).getLsbD (8 + k) = old.getLsbD (8 + k) := by
    intro old
    rw [merge_get _ _ _ _ _ (by omega)]
    have := n8 (8 + k) (by omega) (by omega)
    simp [this.1, this.2]
  have hhigh : ∀ (old : Word), (merge old flags mask 8).getLsbD (8 + k) = (flags.getLsbD k || (old.getLsbD (8 + k) && !mask.getLsbD k)) := by
    intro old
    rw [merge_get _ _ _ _ _ (by omega)]
    have : 8 ≤ 8 + k := by omega
    have e : 8 + k - 8 = k := by omega
    simp [e]
  have hhigh0 : ∀ (old : Word), (merge old flags mask 8).getLsbD k = old.getLsbD k := by
    intro old
    rw [merge_get _ _ _ _ _ (by omega)]
    rcases kcase with h | h
    · have : ¬ 8 ≤ k := by omega
      simp [this]
    · subst h
      have := hf 8 e16
      have := hm 8 e16
      simp_all
  interval_cases c <;> interval_cases c' <;> cases ext <;>
    simp_all [-BitVec.getLsbD_eq_getElem]

theorem clearCcer_bit (r : Regs) (c : Nat) (mask : Word) : bit (clearCcer r c mask) = bit r := rfl
theorem setCcer_bit (r : Regs) (c : Nat) (f : Word) : bit (setCcer r c f) = bit r := rfl
theorem setCompare_bit (ext : Bool) (r : Regs) (c : Nat) (v : Word) : bit (setCompareValue ext r c v) = bit r := by
  funext c' k
  unfold setCompareValue
  split
  · split
    · rfl
    · split
      · rfl
      · split <;> rfl
  · rfl

theorem clear_out (r : Regs) (c c' k : Nat) (mask : Word) (hm : ∀ j, 4 ≤ j → mask.getLsbD j = false)
    (hc : 1 ≤ c) (hc' : 1 ≤ c') (h6 : c' ≤ 6) (hk : k < 4) :
    out (clearCcer r (c - 1) mask) c' k = (out r c' k && !(decide (c' = c) && mask.getLsbD k)) := by
  unfold out clearCcer
  simp only [BitVec.getLsbD_and, BitVec.getLsbD_not, BitVec.getLsbD_shiftLeft]
  have hi : 4 * (c' - 1) + k < 32 := by omega
  by_cases h : c' = c
  · subst h
    have e1 : ¬ 4 * (c' - 1) + k < (c' - 1) * 4 := by omega
    have e2 : 4 * (c' - 1) + k - (c' - 1) * 4 = k := by omega
    simp [hi, e1, e2]
  · by_cases h2 : c' < c
    · have e1 : 4 * (c' - 1) + k < (c - 1) * 4 := by omega
      simp [hi, e1, h]
    · have e1 : ¬ 4 * (c' - 1) + k < (c - 1) * 4 := by omega
      have e2 := hm (4 * (c' - 1) + k - (c - 1) * 4) (by omega)
      simp [hi, h, e2]

theorem set_out (r : Regs) (c c' k : Nat) (flags : Word) (hm : ∀ j, 4 ≤ j → flags.getLsbD j = false)
    (hc : 1 ≤ c) (hc' : 1 ≤ c') (h6 : c' ≤ 6) (hk : k < 4) :
    out (setCcer r (c - 1) flags) c' k = (out r c' k || (decide (c' = c) && flags.getLsbD k)) := by
  unfold out setCcer
  simp only [BitVec.getLsbD_or, BitVec.getLsbD_shiftLeft]
  have hi : 4 * (c' - 1) + k < 32 := by omega
  by_cases h : c' = c
  · subst h
    have e1 : ¬ 4 * (c' - 1) + k < (c' - 1) * 4 := by omega
    have e2 : 4 * (c' - 1) + k - (c' - 1) * 4 = k := by omega
    simp [hi, e1, e2]
  · by_cases h2 : c' < c
    · have e1 : 4 * (c' - 1) + k < (c - 1) * 4 := by omega
      simp [e1, h]
    · have e1 : ¬ 4 * (c' - 1) + k < (c - 1) * 4 := by omega
      have e2 := hm (4 * (c' - 1) + k - (c - 1) * 4) (by omega)
      simp [h, e2]

theorem update_out (ext : Bool) (r : Regs) (c : Nat) (flags mask : Word) : out (updateCcmr ext r c flags mask) = out r := by
  funext c' k
  unfold updateCcmr
  split
  · rfl
  · split <;> rfl

theorem setCompare_out (ext : Bool) (r : Regs) (c : Nat) (v : Word) : out (setCompareValue ext r c v) = out r := by
  funext c' k
  unfold setCompareValue
  split
  · split
    · rfl
    · split
      · rfl
      · split <;> rfl
  · rfl

theorem update_compare (ext : Bool) (r : Regs) (c : Nat) (flags mask : Word) : compareOf (updateCcmr ext r c flags mask) = compareOf r := by
  funext c'
  unfold updateCcmr
  split
  · rfl
  · split <;> rfl

theorem clear_compare (r : Regs) (c : Nat) (mask : Word) : compareOf (clearCcer r c mask) = compareOf r := rfl
theorem set_compare (r : Regs) (c : Nat) (f : Word) : compareOf (setCcer r c f) = compareOf r := rfl

theorem setCompare_compare (ext : Bool) (r : Regs) (c c' : Nat) (v : Word) (hc : 1 ≤ c) (hc2 : c ≤ channels ext)
    (hc' : 1 ≤ c') (h6 : c' ≤ 6) :
    compareOf (setCompareValue ext r c v) c' = if c' = c then v else compareOf r c' := by
  have c6 : c ≤ 6 := by unfold channels at hc2; split at hc2 <;> omega
  have cext : ext = false → c ≤ 4 := by
    intro h
    simp only [channels, h] at hc2
    simpa using hc2
  unfold compareOf setCompareValue
  interval_cases c <;> interval_cases c' <;> cases ext <;> simp_all [Function.update]

end Stm32TimerLemmas

namespace Stm32TimerLemmas

open Modm.Stm32Timer Stm32TimerSpec

theorem own_ff (j : Nat) (h : ¬ Own j) : (0xff : Word).getLsbD j = false := by
  rw [ff_get]
  unfold Own at h
  simp
  omega

theorem own_f0 (j : Nat) (h : ¬ Own j) : (0xf0 : Word).getLsbD j = false := by
  rw [f0_get]
  unfold Own at h
  simp
  omega

theorem own_oc1m (j : Nat) (h : ¬ Own j) : oc1m.getLsbD j = false := by
  rw [oc1m_get]
  unfold Own at h
  simp
  omega

theorem own_oc1pe (j : Nat) (h : ¬ Own j) : oc1pe.getLsbD j = false := by
  rw [oc1pe_get]
  unfold Own at h
  simp
  omega

theorem own_value (m : Mode) (j : Nat) (h : ¬ Own j) : m.value.getLsbD j = false := by
  rw [value_get]
  unfold Own at h
  have h4 : j ≠ 4 := by omega
  have h5 : j ≠ 5 := by omega
  have h6 : j ≠ 6 := by omega
  have h16 : j ≠ 16 := by omega
  simp [h4, h5, h6, h16]

/-- The number that the four bits of a mode give. -/
theorem number_bits (m : Mode) :
    ((number m).testBit 0).toNat + 2 * ((number m).testBit 1).toNat + 4 * ((number m).testBit 2).toNat +
      8 * ((number m).testBit 3).toNat = number m := by
  cases m <;> decide +kernel

theorem number_bit3 (m : Mode) : (number m).testBit 3 = decide (8 ≤ number m) := by
  cases m <;> decide +kernel

/-- The configuration of an output: mode, selection and preload, when the whole byte is replaced. -/
theorem output_fields (r r' : Regs) (c : Nat) (m : Mode) (p : Bool)
    (h : ∀ k, Own k → bit r' c k = ((m.value.getLsbD k || (p && decide (k = 3))) || (bit r c k && !decide (k < 8)))) :
    modeOf r' c = number m + (if bit r c 16 = true ∧ number m < 8 then 8 else 0) ∧
    selection r' c = 0 ∧ preloaded r' c = p := by
  have h0 := h 0 (by unfold Own; omega)
  have h1 := h 1 (by unfold Own; omega)
  have h3 := h 3 (by unfold Own; omega)
  have h4 := h 4 (by unfold Own; omega)
  have h5 := h 5 (by unfold Own; omega)
  have h6 := h 6 (by unfold Own; omega)
  have h16 := h 16 (by unfold Own; omega)
  rw [value_get] at h0 h1 h3 h4 h5 h6 h16
  simp at h0 h1 h3 h4 h5 h6 h16
  have hn := number_bits m
  have hb := number_bit3 m
  refine ⟨?_, ?_, ?_⟩
  · unfold modeOf
    rw [h4, h5, h6, h16]
    simp only [Nat.testBit_zero] at hn
    rw [hb] at hn
    rw [hb]
    by_cases h8 : 8 ≤ number m
    · have : ¬ number m < 8 := by omega
      simp only [h8, decide_true, Bool.true_or, this, and_false, if_false, Bool.toNat_true] at hn ⊢
      omega
    · have : number m < 8 := by omega
      simp only [h8, decide_false, Bool.false_or, this, and_true, Bool.toNat_false] at hn ⊢
      cases bit r c 16 <;> simp <;> omega
  · unfold selection
    rw [h0, h1]
    rfl
  · unfold preloaded
    rw [h3]

theorem flags_pe (m : Mode) (p : Bool) (k : Nat) :
    (m.value ||| preloadFlag p).getLsbD k = (m.value.getLsbD k || (p && decide (k = 3))) := by
  unfold preloadFlag
  cases p <;> simp [BitVec.getLsbD_or, oc1pe_get, -BitVec.getLsbD_eq_getElem]

theorem flags_pe_true (m : Mode) : m.value ||| oc1pe = m.value ||| preloadFlag true := rfl

theorem flags_gp (m : Mode) (p : Bool) : (if p then m.value ||| oc1pe else m.value) = m.value ||| preloadFlag p := by
  cases p
  · simp [preloadFlag]
  · rfl

theorem own_flags (m : Mode) (p : Bool) (j : Nat) (h : ¬ Own j) : (m.value ||| preloadFlag p).getLsbD j = false := by
  rw [flags_pe, own_value m j h]
  unfold Own at h
  have : j ≠ 3 := by omega
  simp [this]

theorem small_get (x : Word) (h : x.toNat < 16) (j : Nat) (hj : 4 ≤ j) : x.getLsbD j = false := by
  rw [BitVec.getLsbD]
  apply Nat.testBit_lt_two_pow
  calc x.toNat < 16 := h
    _ = 2 ^ 4 := by norm_num
    _ ≤ 2 ^ j := Nat.pow_le_pow_right (by omega) hj

end Stm32TimerLemmas
