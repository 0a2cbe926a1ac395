import Verif.Lemmas.Stm32Timer

/-! # Timers of STM32 -/

set_option autoImplicit false

namespace Props.Stm32Timer

open Modm.Stm32Timer Stm32TimerSpec Stm32TimerLemmas

/-! ## C206: the period -/

/-- A 16-bit timer: for 2 to 65535² cycles the timer has a period that is at most the given one and shorter by
less than a tick, with a prescaler that is not larger than needed for 65535 ticks; `setPeriod` returns the
overflow. -/
theorem C206_cycles16_partial (b : Base) (c : Nat) (h1 : 2 ≤ c) (h2 : c ≤ 65535 * 65535) :
    ∃ b', setCycles .w16 b c = some (b', b'.arr) ∧ b'.psc < 2 ^ 16 ∧ b'.arr < 2 ^ 16 ∧
      (∃ p, HasPeriod b' p ∧ p ≤ c ∧ c < p + (b'.psc + 1)) ∧ 65535 * b'.psc < c := by
  obtain ⟨e, h3, h4⟩ := prescaler16 c (by omega) h2
  have hp : prescalerOf .w16 c ≠ 0 := by omega
  have hps : (prescalerOf .w16 c + 2 ^ 16 - 1) % 2 ^ 16 = prescalerOf .w16 c - 1 := by omega
  have hup : c ≤ 65535 * prescalerOf .w16 c := by omega
  have hlo : 65535 * (prescalerOf .w16 c - 1) < c := by omega
  have hq1 : c / prescalerOf .w16 c ≤ 65535 := Nat.div_le_of_le_mul (by rw [Nat.mul_comm]; exact hup)
  have hq2 : 2 ≤ c / prescalerOf .w16 c := by
    rw [Nat.le_div_iff_mul_le (by omega)]
    omega
  have har : (c / prescalerOf .w16 c + 2 ^ 32 - 1) % 2 ^ 32 % (Width.max .w16 + 1) = c / prescalerOf .w16 c - 1 := by
    simp only [Width.max]
    omega
  have e1 : prescalerOf .w16 c - 1 + 1 = prescalerOf .w16 c := by omega
  have e2 : c / prescalerOf .w16 c - 1 + 1 = c / prescalerOf .w16 c := by omega
  refine ⟨⟨prescalerOf .w16 c - 1, c / prescalerOf .w16 c - 1⟩, ?_, ?_, ?_, ⟨c / prescalerOf .w16 c * prescalerOf .w16 c, ?_, ?_, ?_⟩, hlo⟩
  · simp only [setCycles, if_neg hp, setOverflow, setPrescaler, hps, har]
  · simp only
    omega
  · simp only
    omega
  · have := hasPeriod ⟨prescalerOf .w16 c - 1, c / prescalerOf .w16 c - 1⟩ (by simp only; omega)
    simp only at this
    rw [e1, e2, Nat.mul_comm] at this
    exact this
  · exact Nat.div_mul_le_self _ _
  · simp only
    rw [e1]
    exact Nat.lt_div_mul_add (by omega)

example : setCycles .w16 ⟨0, 0⟩ 36000000 = some (⟨549, 65453⟩, 65453) := by decide +kernel
example : (549 + 1) * (65453 + 1) = 35999700 := by decide

/-- A 32-bit timer: for 2 cycles up to what 32 bits hold the period is exact. -/
theorem C206_cycles32_partial (b : Base) (c : Nat) (h1 : 2 ≤ c) (h2 : c < 2 ^ 32) :
    ∃ b', setCycles .w32 b c = some (b', b'.arr) ∧ b'.psc < 2 ^ 16 ∧ b'.arr < 2 ^ 32 ∧ HasPeriod b' c := by
  have hp := prescaler32 c (by omega) h2
  have har : (c / 1 + 2 ^ 32 - 1) % 2 ^ 32 % (Width.max .w32 + 1) = c - 1 := by
    simp only [Width.max]
    omega
  refine ⟨⟨0, c - 1⟩, ?_, by simp, by simp only; omega, ?_⟩
  · simp only [setCycles, hp, har]
    simp [setOverflow, setPrescaler]
  · have := hasPeriod ⟨0, c - 1⟩ (by simp only; omega)
    simp only at this
    have e2 : c - 1 + 1 = c := by omega
    rw [e2] at this
    simpa using this

example : setCycles .w32 ⟨0, 0⟩ 4000000000 = some (⟨0, 3999999999⟩, 3999999999) := by decide +kernel

/-- `setPeriod` of a duration is `setCycles` of the whole cycles in it, when they fit. -/
theorem C206_setPeriod_partial (w : Width) (b : Base) (count freq num den : Nat)
    (h1 : count * freq * num < 2 ^ 63) (hn : 0 < num) (h2 : count * freq * num / den < 2 ^ 32) :
    setPeriod w b count freq num den = setCycles w b (count * freq * num / den) := by
  have h0 : count * freq < 2 ^ 63 := by
    refine Nat.lt_of_le_of_lt ?_ h1
    exact Nat.le_mul_of_pos_right _ hn
  have key : ∀ n : Nat, n < 2 ^ 63 → int64 (n : Int) = some (n : Int) := by
    intro n hn
    unfold int64
    rw [if_pos (by omega)]
  have a1 : int64 ((count : Int) * (freq : Int)) = some ((count * freq : Nat) : Int) := by
    rw [← Int.natCast_mul]
    exact key _ h0
  have a2 : int64 (((count * freq : Nat) : Int) * (num : Int)) = some ((count * freq * num : Nat) : Int) := by
    rw [← Int.natCast_mul]
    exact key _ h1
  have a3 : toU32 (Int.tdiv ((count * freq * num : Nat) : Int) (den : Int)) = count * freq * num / den := by
    unfold toU32
    rw [← Int.ofNat_tdiv]
    generalize count * freq * num / den = x at h2
    omega
  unfold setPeriod cyclesOf
  rw [a1, Option.bind_eq_bind, Option.bind_eq_bind, Option.bind_some, a2, Option.bind_some, a3]
  rfl

example : setPeriod .w16 ⟨0, 0⟩ 500 72000000 1 1000 = some (⟨549, 65453⟩, 65453) := by decide +kernel

/-- Longer durations are not refused: 60 s at 72 MHz give a period of less than 0.35 s (25032704 of the
4320000000 cycles). -/
theorem C206_long_counterexample :
    ∃ b', setPeriod .w16 ⟨0, 0⟩ 60 72000000 1 1 = some (b', b'.arr) ∧ HasPeriod b' 25032460 :=
  ⟨⟨381, 65529⟩, by decide +kernel, hasPeriod ⟨381, 65529⟩ (by decide)⟩

/-- A duration whose cycles fit 32 bits but need a prescaler of 65536 divides by zero: 59.651 s at 72 MHz. -/
theorem C206_divide_counterexample : setPeriod .w16 ⟨0, 0⟩ 59651 72000000 1 1000 = none := by decide +kernel

/-- A duration of less than a cycle divides by zero, too: 10 ns at 72 MHz. -/
theorem C206_zero_counterexample (w : Width) (b : Base) : setPeriod w b 10 72000000 1 1000000000 = none := by
  cases w <;> rfl

/-- A duration of a single cycle blocks the timer. -/
theorem C206_one_counterexample (w : Width) (b : Base) :
    ∃ b', setCycles w b 1 = some (b', 0) ∧ ∀ n, updateAt b' n = false :=
  ⟨⟨0, 0⟩, by cases w <;> rfl, blocked _ rfl⟩

/-- `getPrescaler` gives back what `setPrescaler` got. -/
theorem C206_prescaler (b : Base) (p : Nat) (h : p < 2 ^ 16) : getPrescaler (setPrescaler b p) = p := by
  simp only [getPrescaler, setPrescaler]
  omega

/-! ## C207: output channels -/

theorem full_bits (ext : Bool) (r r0 : Regs) (c c' k : Nat) (m : Mode) (p : Bool)
    (hc : 1 ≤ c) (hc2 : c ≤ channels ext) (hc' : 1 ≤ c') (h6 : c' ≤ 6) (hk : Own k) (h0 : bit r0 = bit r) :
    bit (updateCcmr ext r0 (c - 1) (m.value ||| preloadFlag p) 0xff) c' k =
      if c' = c then ((m.value.getLsbD k || (p && decide (k = 3))) || (bit r c k && !decide (k < 8))) else bit r c' k := by
  rw [updateCcmr_bit ext r0 _ _ c c' k hc hc2 hc' h6 hk (own_flags m p) own_ff, flags_pe, ff_get, h0]

/-- `configureOutputChannel(channel, mode, out, polarity, out_n, polarity_n, preload)`: the channel is an output
with this preload, these outputs and polarities, and nothing of the other channels changes.  Its mode is
the given one unless the channel had a combined or asymmetric mode before (see the counterexample). -/
theorem C207_full_partial (ext : Bool) (r : Regs) (c : Nat) (m : Mode) (o lowP oN lowN p : Bool)
    (hc : 1 ≤ c) (hc2 : c ≤ channels ext) :
    let r' := configureOutputFull ext r c m o lowP oN lowN p
    (bit r c 16 = false ∨ 8 ≤ number m → modeOf r' c = number m) ∧
    selection r' c = 0 ∧ preloaded r' c = p ∧
    out r' c 0 = o ∧ out r' c 1 = lowP ∧ out r' c 2 = oN ∧ out r' c 3 = lowN ∧
    compareOf r' c = compareOf r c ∧ OthersSame r r' c := by
  have c6 : c ≤ 6 := by unfold channels at hc2; split at hc2 <;> omega
  simp only [configureOutputFull]
  set flags : Word := (polarity lowN <<< 2) ||| (pinState oN <<< 2) ||| polarity lowP ||| pinState o with hfl
  have hsm : ∀ j, 4 ≤ j → flags.getLsbD j = false := by
    apply small_get
    rw [hfl]
    cases o <;> cases lowP <;> cases oN <;> cases lowN <;> decide
  have hbits : ∀ c' k, 1 ≤ c' → c' ≤ 6 → Own k →
      bit (setCcer (updateCcmr ext (clearCcer r (c - 1) 0xf) (c - 1) (m.value ||| preloadFlag p) 0xff) (c - 1) flags) c' k =
      if c' = c then ((m.value.getLsbD k || (p && decide (k = 3))) || (bit r c k && !decide (k < 8))) else bit r c' k := by
    intro c' k h1 h2 hk
    rw [setCcer_bit]
    exact full_bits ext r _ c c' k m p hc hc2 h1 h2 hk (clearCcer_bit r _ _)
  have hout : ∀ c' k, 1 ≤ c' → c' ≤ 6 → k < 4 →
      out (setCcer (updateCcmr ext (clearCcer r (c - 1) 0xf) (c - 1) (m.value ||| preloadFlag p) 0xff) (c - 1) flags) c' k =
      if c' = c then flags.getLsbD k else out r c' k := by
    intro c' k h1 h2 hk
    rw [set_out _ c c' k flags hsm hc h1 h2 hk, update_out,
      clear_out r c c' k _ (fun j hj => by rw [f_get]; simp; omega) hc h1 h2 hk, f_get]
    by_cases h : c' = c
    · simp [h, hk]
    · simp [h]
  obtain ⟨f1, f2, f3⟩ := output_fields r _ c m p (fun k hk => by rw [hbits c k hc c6 hk, if_pos rfl])
  refine ⟨?_, f2, f3, ?_, ?_, ?_, ?_, ?_, ?_⟩
  · intro h
    rw [f1]
    rcases h with h | h
    · simp [h]
    · have : ¬ number m < 8 := by omega
      simp [this]
  · rw [hout c 0 hc c6 (by omega), if_pos rfl, hfl]
    cases o <;> cases lowP <;> cases oN <;> cases lowN <;> rfl
  · rw [hout c 1 hc c6 (by omega), if_pos rfl, hfl]
    cases o <;> cases lowP <;> cases oN <;> cases lowN <;> rfl
  · rw [hout c 2 hc c6 (by omega), if_pos rfl, hfl]
    cases o <;> cases lowP <;> cases oN <;> cases lowN <;> rfl
  · rw [hout c 3 hc c6 (by omega), if_pos rfl, hfl]
    cases o <;> cases lowP <;> cases oN <;> cases lowN <;> rfl
  · rw [set_compare, update_compare, clear_compare]
  · intro c' h1 h2 h3
    refine ⟨fun k hk => ?_, fun k hk => ?_, ?_⟩
    · rw [hbits c' k h1 h2 hk, if_neg h3]
    · rw [hout c' k h1 h2 hk, if_neg h3]
    · rw [set_compare, update_compare, clear_compare]

example : modeOf (configureOutputFull true {} 6 .combined2 true false true true true) 6 = 13 ∧
    modeOf (configureOutputFull true {} 6 .combined2 true false true true true) 5 = 0 := by decide +kernel

/-- A channel that had a combined mode does not get the mode it is configured with: PWM mode 1 becomes
asymmetric mode 1 (14 instead of 6). -/
theorem C207_mode_counterexample :
    let r := configureOutputGp {} 1 .combined1 100 true true
    modeOf r 1 = number .combined1 ∧
    modeOf (configureOutputGp r 1 .pwm 100 true true) 1 = number .asymmetric1 ∧
    modeOf (configureOutputAdv false r 1 .pwm 100 true) 1 = number .asymmetric1 ∧
    modeOf (configureOutputFull false r 1 .pwm true false false false true) 1 = number .asymmetric1 := by
  decide +kernel

/-- `configureOutputChannel(channel, mode, compareValue, out, …, preload)` sets the compare value, too. -/
theorem C207_compare_partial (ext : Bool) (r : Regs) (c : Nat) (m : Mode) (v : Word) (o lowP oN lowN p : Bool)
    (hc : 1 ≤ c) (hc2 : c ≤ channels ext) :
    let r' := configureOutputCompare ext r c m v o lowP oN lowN p
    (bit r c 16 = false ∨ 8 ≤ number m → modeOf r' c = number m) ∧
    selection r' c = 0 ∧ preloaded r' c = p ∧
    out r' c 0 = o ∧ out r' c 1 = lowP ∧ out r' c 2 = oN ∧ out r' c 3 = lowN ∧
    compareOf r' c = v ∧ OthersSame r r' c := by
  have c6 : c ≤ 6 := by unfold channels at hc2; split at hc2 <;> omega
  simp only [configureOutputCompare]
  set r1 := setCompareValue ext (clearCcer r (c - 1) 0xf) c v with hr1
  have hb : bit r1 = bit r := by rw [hr1, setCompare_bit, clearCcer_bit]
  have ho : ∀ c' k, 1 ≤ c' → c' ≤ 6 → k < 4 → c' ≠ c → out r1 c' k = out r c' k := by
    intro c' k h1 h2 hk h3
    rw [hr1, setCompare_out, clear_out r c c' k _ (fun j hj => by rw [f_get]; simp; omega) hc h1 h2 hk]
    simp [h3]
  have hcmp : ∀ c', 1 ≤ c' → c' ≤ 6 → compareOf r1 c' = if c' = c then v else compareOf r c' := by
    intro c' h1 h2
    rw [hr1, setCompare_compare ext _ c c' v hc hc2 h1 h2, clear_compare]
  obtain ⟨f1, f2, f3, f4, f5, f6, f7, f8, f9⟩ := C207_full_partial ext r1 c m o lowP oN lowN p hc hc2
  rw [hb] at f1
  refine ⟨f1, f2, f3, f4, f5, f6, f7, ?_, ?_⟩
  · rw [f8, hcmp c hc c6, if_pos rfl]
  · intro c' h1 h2 h3
    obtain ⟨g1, g2, g3⟩ := f9 c' h1 h2 h3
    refine ⟨fun k hk => ?_, fun k hk => ?_, ?_⟩
    · rw [g1 k hk, hb]
    · rw [g2 k hk, ho c' k h1 h2 hk h3]
    · rw [g3, hcmp c' h1 h2, if_neg h3]

/-- `configureOutputChannel(channel, mode, compareValue, out, enableComparePreload)` of the general purpose timers:
the output is enabled when asked for, except in the inactive mode, and active high. -/
theorem C207_gp_partial (r : Regs) (c : Nat) (m : Mode) (v : Word) (o p : Bool) (hc : 1 ≤ c) (hc2 : c ≤ 4) :
    let r' := configureOutputGp r c m v o p
    (bit r c 16 = false ∨ 8 ≤ number m → modeOf r' c = number m) ∧
    selection r' c = 0 ∧ preloaded r' c = p ∧
    out r' c 0 = (o && decide (m ≠ .inactive)) ∧ out r' c 1 = false ∧ out r' c 2 = out r c 2 ∧ out r' c 3 = false ∧
    compareOf r' c = v ∧ OthersSame r r' c := by
  have hch : c ≤ channels false := by simpa [channels] using hc2
  have hmask : ∀ j, 4 ≤ j → (cc1np ||| cc1p ||| cc1e).getLsbD j = false := small_get _ (by decide)
  have hce : ∀ j, 4 ≤ j → cc1e.getLsbD j = false := small_get _ (by decide)
  simp only [configureOutputGp, flags_gp]
  rw [show c - 1 + 1 = c from by omega]
  set r1 := setCompareValue false (clearCcer r (c - 1) (cc1np ||| cc1p ||| cc1e)) c v with hr1
  set r2 := updateCcmr false r1 (c - 1) (m.value ||| preloadFlag p) 0xff with hr2
  set r3 := (if m ≠ .inactive ∧ o = true then setCcer r2 (c - 1) cc1e else r2) with hr3
  have hb1 : bit r1 = bit r := by rw [hr1, setCompare_bit, clearCcer_bit]
  have hb3 : bit r3 = bit r2 := by
    rw [hr3]
    split
    · rw [setCcer_bit]
    · rfl
  have hbits : ∀ c' k, 1 ≤ c' → c' ≤ 6 → Own k → bit r3 c' k =
      if c' = c then ((m.value.getLsbD k || (p && decide (k = 3))) || (bit r c k && !decide (k < 8))) else bit r c' k := by
    intro c' k h1 h2 hk
    rw [hb3, hr2]
    exact full_bits false r r1 c c' k m p hc hch h1 h2 hk hb1
  have hout : ∀ c' k, 1 ≤ c' → c' ≤ 6 → k < 4 → out r3 c' k =
      if c' = c then ((out r c k && !(cc1np ||| cc1p ||| cc1e).getLsbD k) || (decide (m ≠ .inactive ∧ o = true) && decide (k = 0)))
      else out r c' k := by
    intro c' k h1 h2 hk
    have e2 : out r2 c' k = (out r c' k && !(decide (c' = c) && (cc1np ||| cc1p ||| cc1e).getLsbD k)) := by
      rw [hr2, update_out, hr1, setCompare_out, clear_out r c c' k _ hmask hc h1 h2 hk]
    have ek : cc1e.getLsbD k = decide (k = 0) := by
      interval_cases k <;> rfl
    rw [hr3]
    split
    · rename_i hif
      rw [set_out _ c c' k cc1e hce hc h1 h2 hk, e2, ek]
      by_cases h : c' = c
      · simp [h, hif, -BitVec.getLsbD_eq_getElem]
      · simp [h]
    · rename_i hif
      rw [e2]
      by_cases h : c' = c
      · simp [h, hif, -BitVec.getLsbD_eq_getElem]
      · simp [h]
  have hcmp : ∀ c', 1 ≤ c' → c' ≤ 6 → compareOf r3 c' = if c' = c then v else compareOf r c' := by
    intro c' h1 h2
    have e : compareOf r3 = compareOf r2 := by
      rw [hr3]
      split
      · rw [set_compare]
      · rfl
    rw [e, hr2, update_compare, hr1, setCompare_compare false _ c c' v hc hch h1 h2, clear_compare]
  obtain ⟨f1, f2, f3⟩ := output_fields r r3 c m p (fun k hk => by rw [hbits c k hc (by omega) hk, if_pos rfl])
  refine ⟨?_, f2, f3, ?_, ?_, ?_, ?_, ?_, ?_⟩
  · intro h
    rw [f1]
    rcases h with h | h
    · simp [h]
    · have : ¬ number m < 8 := by omega
      simp [this]
  · rw [hout c 0 hc (by omega) (by omega), if_pos rfl]
    have : (cc1np ||| cc1p ||| cc1e).getLsbD 0 = true := rfl
    rw [this]
    cases o <;> simp
  · rw [hout c 1 hc (by omega) (by omega), if_pos rfl]
    have : (cc1np ||| cc1p ||| cc1e).getLsbD 1 = true := rfl
    rw [this]
    simp
  · rw [hout c 2 hc (by omega) (by omega), if_pos rfl]
    have : (cc1np ||| cc1p ||| cc1e).getLsbD 2 = false := rfl
    rw [this]
    simp
  · rw [hout c 3 hc (by omega) (by omega), if_pos rfl]
    have : (cc1np ||| cc1p ||| cc1e).getLsbD 3 = true := rfl
    rw [this]
    simp
  · rw [hcmp c hc (by omega), if_pos rfl]
  · intro c' h1 h2 h3
    refine ⟨fun k hk => ?_, fun k hk => ?_, ?_⟩
    · rw [hbits c' k h1 h2 hk, if_neg h3]
    · rw [hout c' k h1 h2 hk, if_neg h3]
    · rw [hcmp c' h1 h2, if_neg h3]

example : modeOf (configureOutputGp {} 3 .pwm2 77 true true) 3 = 7 ∧
    out (configureOutputGp {} 3 .pwm2 77 true true) 3 0 = true := by decide +kernel

/-- The same for the advanced timers, which always preload and disable the complementary output. -/
theorem C207_adv_partial (ext : Bool) (r : Regs) (c : Nat) (m : Mode) (v : Word) (o : Bool) (hc : 1 ≤ c) (hch : c ≤ channels ext) :
    let r' := configureOutputAdv ext r c m v o
    (bit r c 16 = false ∨ 8 ≤ number m → modeOf r' c = number m) ∧
    selection r' c = 0 ∧ preloaded r' c = true ∧
    out r' c 0 = (o && decide (m ≠ .inactive)) ∧ out r' c 1 = false ∧ out r' c 2 = false ∧ out r' c 3 = false ∧
    compareOf r' c = v ∧ OthersSame r r' c := by
  have c6 : c ≤ 6 := by unfold channels at hch; split at hch <;> omega
  have hce : ∀ j, 4 ≤ j → cc1e.getLsbD j = false := small_get _ (by decide)
  simp only [configureOutputAdv, flags_pe_true]
  rw [show c - 1 + 1 = c from by omega]
  set r1 := setCompareValue ext (clearCcer r (c - 1) 0xf) c v with hr1
  set r2 := updateCcmr ext r1 (c - 1) (m.value ||| preloadFlag true) 0xff with hr2
  set r3 := (if m ≠ .inactive ∧ o = true then setCcer r2 (c - 1) cc1e else r2) with hr3
  have hb1 : bit r1 = bit r := by rw [hr1, setCompare_bit, clearCcer_bit]
  have hb3 : bit r3 = bit r2 := by
    rw [hr3]
    split
    · rw [setCcer_bit]
    · rfl
  have hbits : ∀ c' k, 1 ≤ c' → c' ≤ 6 → Own k → bit r3 c' k =
      if c' = c then ((m.value.getLsbD k || (true && decide (k = 3))) || (bit r c k && !decide (k < 8))) else bit r c' k := by
    intro c' k h1 h2 hk
    rw [hb3, hr2]
    exact full_bits ext r r1 c c' k m true hc hch h1 h2 hk hb1
  have hout : ∀ c' k, 1 ≤ c' → c' ≤ 6 → k < 4 → out r3 c' k =
      if c' = c then (decide (m ≠ .inactive ∧ o = true) && decide (k = 0)) else out r c' k := by
    intro c' k h1 h2 hk
    have e2 : out r2 c' k = (out r c' k && !decide (c' = c)) := by
      rw [hr2, update_out, hr1, setCompare_out,
        clear_out r c c' k _ (fun j hj => by rw [f_get]; simp; omega) hc h1 h2 hk, f_get]
      simp [hk]
    have ek : cc1e.getLsbD k = decide (k = 0) := by
      interval_cases k <;> rfl
    rw [hr3]
    split
    · rename_i hif
      rw [set_out _ c c' k cc1e hce hc h1 h2 hk, e2, ek]
      by_cases h : c' = c
      · simp [h, hif]
      · simp [h]
    · rename_i hif
      rw [e2]
      by_cases h : c' = c
      · simp [h, hif]
      · simp [h]
  have hcmp : ∀ c', 1 ≤ c' → c' ≤ 6 → compareOf r3 c' = if c' = c then v else compareOf r c' := by
    intro c' h1 h2
    have e : compareOf r3 = compareOf r2 := by
      rw [hr3]
      split
      · rw [set_compare]
      · rfl
    rw [e, hr2, update_compare, hr1, setCompare_compare ext _ c c' v hc hch h1 h2, clear_compare]
  obtain ⟨f1, f2, f3⟩ := output_fields r r3 c m true (fun k hk => by rw [hbits c k hc (by omega) hk, if_pos rfl])
  refine ⟨?_, f2, f3, ?_, ?_, ?_, ?_, ?_, ?_⟩
  · intro h
    rw [f1]
    rcases h with h | h
    · simp [h]
    · have : ¬ number m < 8 := by omega
      simp [this]
  · rw [hout c 0 hc (by omega) (by omega), if_pos rfl]
    cases o <;> simp
  · rw [hout c 1 hc (by omega) (by omega), if_pos rfl]
    simp
  · rw [hout c 2 hc (by omega) (by omega), if_pos rfl]
    simp
  · rw [hout c 3 hc (by omega) (by omega), if_pos rfl]
    simp
  · rw [hcmp c hc (by omega), if_pos rfl]
  · intro c' h1 h2 h3
    refine ⟨fun k hk => ?_, fun k hk => ?_, ?_⟩
    · rw [hbits c' k h1 h2 hk, if_neg h3]
    · rw [hout c' k h1 h2 hk, if_neg h3]
    · rw [hcmp c' h1 h2, if_neg h3]

example : modeOf (configureOutputAdv true {} 5 .pwm 77 true) 5 = 6 ∧
    compareOf (configureOutputAdv true {} 5 .pwm 77 true) 5 = 77 := by decide +kernel

/-! ## C208: switching the mode of a running channel -/

/-- `setInvertedPwm`, `setNormalPwm`, `forceInactive`, `forceActive`: from any state the channel has the mode
afterwards; its other settings, its outputs, its compare value and the other channels stay. -/
theorem switch_spec (r : Regs) (c : Nat) (m : Mode) (hc : 1 ≤ c) (hc2 : c ≤ 4) :
    modeOf (switchMode r c m) c = number m ∧
    (∀ k, Own k → k ≠ 4 → k ≠ 5 → k ≠ 6 → k ≠ 16 → bit (switchMode r c m) c k = bit r c k) ∧
    (∀ k, k < 4 → out (switchMode r c m) c k = out r c k) ∧
    compareOf (switchMode r c m) c = compareOf r c ∧ OthersSame r (switchMode r c m) c := by
  have hch : c ≤ channels false := by simpa [channels] using hc2
  have hbits : ∀ c' k, 1 ≤ c' → c' ≤ 6 → Own k → bit (switchMode r c m) c' k =
      if c' = c then (m.value.getLsbD k || (bit r c k && !decide (k = 4 ∨ k = 5 ∨ k = 6 ∨ k = 16))) else bit r c' k := by
    intro c' k h1 h2 hk
    unfold switchMode
    rw [updateCcmr_bit false r _ _ c c' k hc hch h1 h2 hk (own_value m) own_oc1m, oc1m_get]
  have hout : out (switchMode r c m) = out r := update_out _ _ _ _ _
  have hcmp : compareOf (switchMode r c m) = compareOf r := update_compare _ _ _ _ _
  refine ⟨?_, ?_, ?_, ?_, ?_⟩
  · have h4 := hbits c 4 hc (by omega) (by unfold Own; omega)
    have h5 := hbits c 5 hc (by omega) (by unfold Own; omega)
    have h6 := hbits c 6 hc (by omega) (by unfold Own; omega)
    have h16 := hbits c 16 hc (by omega) (by unfold Own; omega)
    rw [value_get] at h4 h5 h6 h16
    have hn := number_bits m
    simp at h4 h5 h6 h16
    unfold modeOf
    rw [h4, h5, h6, h16]
    simpa using hn
  · intro k hk h4 h5 h6 h16
    rw [hbits c k hc (by omega) hk, if_pos rfl, value_get]
    simp [h4, h5, h6, h16]
  · intro k _
    rw [hout]
  · rw [hcmp]
  · intro c' h1 h2 h3
    refine ⟨fun k hk => ?_, fun k _ => by rw [hout], by rw [hcmp]⟩
    rw [hbits c' k h1 h2 hk, if_neg h3]

theorem C208_setInvertedPwm (r : Regs) (c : Nat) (hc : 1 ≤ c) (hc2 : c ≤ 4) :
    modeOf (setInvertedPwm r c) c = 7 ∧
    (∀ k, Own k → k ≠ 4 → k ≠ 5 → k ≠ 6 → k ≠ 16 → bit (setInvertedPwm r c) c k = bit r c k) ∧
    (∀ k, k < 4 → out (setInvertedPwm r c) c k = out r c k) ∧
    compareOf (setInvertedPwm r c) c = compareOf r c ∧ OthersSame r (setInvertedPwm r c) c := switch_spec r c .pwm2 hc hc2

theorem C208_setNormalPwm (r : Regs) (c : Nat) (hc : 1 ≤ c) (hc2 : c ≤ 4) :
    modeOf (setNormalPwm r c) c = 6 ∧
    (∀ k, Own k → k ≠ 4 → k ≠ 5 → k ≠ 6 → k ≠ 16 → bit (setNormalPwm r c) c k = bit r c k) ∧
    (∀ k, k < 4 → out (setNormalPwm r c) c k = out r c k) ∧
    compareOf (setNormalPwm r c) c = compareOf r c ∧ OthersSame r (setNormalPwm r c) c := switch_spec r c .pwm hc hc2

theorem C208_forceInactive (r : Regs) (c : Nat) (hc : 1 ≤ c) (hc2 : c ≤ 4) :
    modeOf (forceInactive r c) c = 4 ∧
    (∀ k, Own k → k ≠ 4 → k ≠ 5 → k ≠ 6 → k ≠ 16 → bit (forceInactive r c) c k = bit r c k) ∧
    (∀ k, k < 4 → out (forceInactive r c) c k = out r c k) ∧
    compareOf (forceInactive r c) c = compareOf r c ∧ OthersSame r (forceInactive r c) c := switch_spec r c .forceInactive hc hc2

theorem C208_forceActive (r : Regs) (c : Nat) (hc : 1 ≤ c) (hc2 : c ≤ 4) :
    modeOf (forceActive r c) c = 5 ∧
    (∀ k, Own k → k ≠ 4 → k ≠ 5 → k ≠ 6 → k ≠ 16 → bit (forceActive r c) c k = bit r c k) ∧
    (∀ k, k < 4 → out (forceActive r c) c k = out r c k) ∧
    compareOf (forceActive r c) c = compareOf r c ∧ OthersSame r (forceActive r c) c := switch_spec r c .forceActive hc hc2

example : modeOf (setNormalPwm (configureOutputGp {} 2 .combined1 5 true true) 2) 2 = 6 := by decide +kernel

/-- `configureOutputChannel(channel, modeOutputPorts)` of the advanced timers: bits 4 to 6 are the mode, bits 0 to 3
the outputs; from any state. -/
theorem C208_raw (ext : Bool) (r : Regs) (c : Nat) (w : Word) (hc : 1 ≤ c) (hch : c ≤ channels ext) :
    modeOf (configureOutputRaw ext r c w) c = w.toNat / 16 % 8 ∧
    (∀ k, k < 4 → out (configureOutputRaw ext r c w) c k = w.getLsbD k) ∧
    preloaded (configureOutputRaw ext r c w) c = preloaded r c ∧
    compareOf (configureOutputRaw ext r c w) c = compareOf r c ∧ OthersSame r (configureOutputRaw ext r c w) c := by
  have c6 : c ≤ 6 := by unfold channels at hch; split at hch <;> omega
  have h70 : ∀ j, (w &&& 0x70).getLsbD j = (w.getLsbD j && decide (j = 4 ∨ j = 5 ∨ j = 6)) := by
    intro j
    rw [BitVec.getLsbD_and]
    congr 1
    by_cases h : j < 32
    · interval_cases j <;> rfl
    · rw [BitVec.getLsbD_of_ge _ _ (by omega)]
      simp
      omega
  have hbits : ∀ c' k, 1 ≤ c' → c' ≤ 6 → Own k → bit (configureOutputRaw ext r c w) c' k =
      if c' = c then ((w.getLsbD k && decide (k = 4 ∨ k = 5 ∨ k = 6)) || (bit r c k && !decide (k = 4 ∨ k = 5 ∨ k = 6 ∨ k = 16)))
      else bit r c' k := by
    intro c' k h1 h2 hk
    have e : bit (configureOutputRaw ext r c w) c' k = bit (updateCcmr ext r (c - 1) (w &&& 0x70) oc1m) c' k := rfl
    rw [e, updateCcmr_bit ext r _ _ c c' k hc hch h1 h2 hk _ own_oc1m, oc1m_get, h70]
    intro j hj
    rw [h70]
    unfold Own at hj
    have : ¬ (j = 4 ∨ j = 5 ∨ j = 6) := by omega
    simp [this]
  have hcc : (configureOutputRaw ext r c w).ccer = ((w &&& 0xf) <<< ((c - 1) * 4)) ||| (r.ccer &&& ~~~((0xf : Word) <<< ((c - 1) * 4))) := by
    simp only [configureOutputRaw, updateCcmr]
    split
    · rfl
    · split <;> rfl
  have hout : ∀ c' k, 1 ≤ c' → c' ≤ 6 → k < 4 → out (configureOutputRaw ext r c w) c' k =
      if c' = c then w.getLsbD k else out r c' k := by
    intro c' k h1 h2 hk
    have hi : 4 * (c' - 1) + k < 32 := by omega
    unfold out
    rw [hcc]
    simp only [BitVec.getLsbD_or, BitVec.getLsbD_and, BitVec.getLsbD_not, BitVec.getLsbD_shiftLeft, f_get]
    by_cases h : c' = c
    · subst h
      have e1 : ¬ 4 * (c' - 1) + k < (c' - 1) * 4 := by omega
      have e2 : 4 * (c' - 1) + k - (c' - 1) * 4 = k := by omega
      simp [hi, e1, e2, hk]
    · by_cases h2 : c' < c
      · have e1 : 4 * (c' - 1) + k < (c - 1) * 4 := by omega
        simp [hi, e1, h]
      · have e1 : ¬ 4 * (c' - 1) + k < (c - 1) * 4 := by omega
        have e2 : ¬ 4 * (c' - 1) + k - (c - 1) * 4 < 4 := by omega
        simp [hi, h, e2]
  have hcmp : compareOf (configureOutputRaw ext r c w) = compareOf r := by
    funext c'
    have e : compareOf (configureOutputRaw ext r c w) c' = compareOf (updateCcmr ext r (c - 1) (w &&& 0x70) oc1m) c' := rfl
    rw [e, update_compare]
  refine ⟨?_, ?_, ?_, ?_, ?_⟩
  · have h4 := hbits c 4 hc (by omega) (by unfold Own; omega)
    have h5 := hbits c 5 hc (by omega) (by unfold Own; omega)
    have h6 := hbits c 6 hc (by omega) (by unfold Own; omega)
    have h16 := hbits c 16 hc (by omega) (by unfold Own; omega)
    simp [-BitVec.getLsbD_eq_getElem] at h4 h5 h6 h16
    unfold modeOf
    rw [h4, h5, h6, h16]
    simp only [BitVec.getLsbD, Nat.toNat_testBit, Bool.toNat_false]
    omega
  · intro k hk
    rw [hout c k hc c6 hk, if_pos rfl]
  · unfold preloaded
    rw [hbits c 3 hc c6 (by unfold Own; omega), if_pos rfl]
    simp
  · rw [hcmp]
  · intro c' h1 h2 h3
    refine ⟨fun k hk => ?_, fun k hk => ?_, by rw [hcmp]⟩
    · rw [hbits c' k h1 h2 hk, if_neg h3]
    · rw [hout c' k h1 h2 hk, if_neg h3]

example : modeOf (configureOutputRaw true {} 4 0x65) 4 = 6 ∧ out (configureOutputRaw true {} 4 0x65) 4 2 = true := by decide +kernel

/-! ## C209: input channels -/

/-- `configureInputChannel`: input, prescaler, filter and edge as given, from any state; the other channels stay. -/
theorem C209_input (ext : Bool) (r : Regs) (c : Nat) (input psc : BitVec 2) (edge : Edge) (filter : BitVec 8) (x : Bool)
    (hc : 1 ≤ c) (hch : c ≤ channels ext) :
    let r' := configureInput ext r c input psc edge filter x
    selection r' c = input.toNat ∧ capturePrescaler r' c = psc.toNat ∧ captureFilter r' c = filter.toNat % 16 ∧
    out r' c 0 = true ∧ out r' c 1 = decide (edge ≠ .rising) ∧ out r' c 3 = decide (edge = .both) ∧
    out r' c 2 = out r c 2 ∧ compareOf r' c = compareOf r c ∧ OthersSame r r' c ∧
    (c = 1 → r'.cr2.getLsbD 7 = x) := by
  have c6 : c ≤ 6 := by unfold channels at hch; split at hch <;> omega
  simp only [configureInput]
  set flags : Word := input.setWidth 32 ||| (psc.setWidth 32 <<< 2) ||| ((filter.setWidth 32 &&& 0xf) <<< 4) with hfl
  set r1 := updateCcmr ext (clearCcer r (c - 1) (cc1np ||| cc1p ||| cc1e)) (c - 1) flags 0xff with hr1
  set r2 := (if c - 1 = 0 then (if x then { r1 with cr2 := r1.cr2 ||| ti1s } else { r1 with cr2 := r1.cr2 &&& ~~~ti1s }) else r1) with hr2
  have hb2 : bit r2 = bit r1 := by
    rw [hr2]; split
    · split <;> rfl
    · rfl
  have ho2 : out r2 = out r1 := by
    rw [hr2]; split
    · split <;> rfl
    · rfl
  have hc2' : compareOf r2 = compareOf r1 := by
    rw [hr2]; split
    · split <;> rfl
    · rfl
  have hmask : ∀ j, 4 ≤ j → (cc1np ||| cc1p ||| cc1e).getLsbD j = false := small_get _ (by decide)
  have hset : ∀ j, 4 ≤ j → (cc1e ||| edge.value).getLsbD j = false := small_get _ (by cases edge <;> decide)
  have hfget : ∀ k, flags.getLsbD k = ((decide (k < 2) && input.getLsbD k) || (decide (2 ≤ k ∧ k < 4) && psc.getLsbD (k - 2)) ||
      (decide (4 ≤ k ∧ k < 8) && filter.getLsbD (k - 4))) := by
    intro k
    rw [hfl]
    simp only [BitVec.getLsbD_or, BitVec.getLsbD_and, BitVec.getLsbD_shiftLeft, BitVec.getLsbD_setWidth, f_get]
    by_cases hk : k < 32
    · interval_cases k <;> simp [BitVec.getLsbD_of_ge, -BitVec.getLsbD_eq_getElem]
    · have e1 : ¬ k < 2 := by omega
      have e2 : ¬ (2 ≤ k ∧ k < 4) := by omega
      have e3 : ¬ (4 ≤ k ∧ k < 8) := by omega
      simp only [hk, e1, e2, e3, decide_false, Bool.false_and, Bool.or_false]
  have hown : ∀ j, ¬ Own j → flags.getLsbD j = false := by
    intro j hj
    rw [hfget]
    unfold Own at hj
    have e1 : ¬ j < 2 := by omega
    have e2 : ¬ (2 ≤ j ∧ j < 4) := by omega
    have e3 : ¬ (4 ≤ j ∧ j < 8) := by omega
    simp only [e1, e2, e3, decide_false, Bool.false_and, Bool.or_false]
  have hbits : ∀ c' k, 1 ≤ c' → c' ≤ 6 → Own k → bit (setCcer r2 (c - 1) (cc1e ||| edge.value)) c' k =
      if c' = c then (flags.getLsbD k || (bit r c k && !decide (k < 8))) else bit r c' k := by
    intro c' k h1 h2 hk
    rw [setCcer_bit, hb2, hr1, updateCcmr_bit ext _ _ _ c c' k hc hch h1 h2 hk hown own_ff, ff_get, clearCcer_bit]
  have hlow : ∀ k, k < 8 → bit (setCcer r2 (c - 1) (cc1e ||| edge.value)) c k = flags.getLsbD k := by
    intro k hk
    rw [hbits c k hc c6 (by unfold Own; omega), if_pos rfl]
    simp [hk, -BitVec.getLsbD_eq_getElem]
  have hout : ∀ c' k, 1 ≤ c' → c' ≤ 6 → k < 4 → out (setCcer r2 (c - 1) (cc1e ||| edge.value)) c' k =
      if c' = c then ((out r c k && !(cc1np ||| cc1p ||| cc1e).getLsbD k) || (cc1e ||| edge.value).getLsbD k) else out r c' k := by
    intro c' k h1 h2 hk
    rw [set_out _ c c' k _ hset hc h1 h2 hk, ho2, hr1, update_out, clear_out r c c' k _ hmask hc h1 h2 hk]
    by_cases h : c' = c
    · simp [h, -BitVec.getLsbD_eq_getElem]
    · simp [h]
  have hcmp : compareOf (setCcer r2 (c - 1) (cc1e ||| edge.value)) = compareOf r := by
    rw [set_compare, hc2', hr1, update_compare, clear_compare]
  refine ⟨?_, ?_, ?_, ?_, ?_, ?_, ?_, by rw [hcmp], ?_, ?_⟩
  · unfold selection
    rw [hlow 0 (by omega), hlow 1 (by omega), hfget, hfget]
    have hlt := input.isLt
    simp [-BitVec.getLsbD_eq_getElem]
    simp only [BitVec.getLsbD, Nat.toNat_testBit]
    omega
  · unfold capturePrescaler
    rw [hlow 2 (by omega), hlow 3 (by omega), hfget, hfget]
    have hlt := psc.isLt
    simp [-BitVec.getLsbD_eq_getElem]
    simp only [BitVec.getLsbD, Nat.toNat_testBit]
    omega
  · unfold captureFilter
    rw [hlow 4 (by omega), hlow 5 (by omega), hlow 6 (by omega), hlow 7 (by omega), hfget, hfget, hfget, hfget]
    simp [-BitVec.getLsbD_eq_getElem]
    simp only [BitVec.getLsbD, Nat.toNat_testBit]
    omega
  · rw [hout c 0 hc c6 (by omega), if_pos rfl]
    have : (cc1e ||| edge.value).getLsbD 0 = true := by cases edge <;> rfl
    rw [this]
    simp
  · rw [hout c 1 hc c6 (by omega), if_pos rfl]
    have : (cc1np ||| cc1p ||| cc1e).getLsbD 1 = true := rfl
    rw [this]
    have : (cc1e ||| edge.value).getLsbD 1 = decide (edge ≠ .rising) := by cases edge <;> rfl
    rw [this]
    simp
  · rw [hout c 3 hc c6 (by omega), if_pos rfl]
    have : (cc1np ||| cc1p ||| cc1e).getLsbD 3 = true := rfl
    rw [this]
    have : (cc1e ||| edge.value).getLsbD 3 = decide (edge = .both) := by cases edge <;> rfl
    rw [this]
    simp
  · rw [hout c 2 hc c6 (by omega), if_pos rfl]
    have : (cc1np ||| cc1p ||| cc1e).getLsbD 2 = false := rfl
    rw [this]
    have : (cc1e ||| edge.value).getLsbD 2 = false := by cases edge <;> rfl
    rw [this]
    simp
  · intro c' h1 h2 h3
    refine ⟨fun k hk => ?_, fun k hk => ?_, by rw [hcmp]⟩
    · rw [hbits c' k h1 h2 hk, if_neg h3]
    · rw [hout c' k h1 h2 hk, if_neg h3]
  · intro h1
    subst h1
    have e : (setCcer r2 (1 - 1) (cc1e ||| edge.value)).cr2 = r2.cr2 := rfl
    rw [e, hr2]
    cases x
    · simp only [Nat.sub_self, if_true, Bool.false_eq_true, if_false, BitVec.getLsbD_and, BitVec.getLsbD_not]
      have : ti1s.getLsbD 7 = true := rfl
      rw [this]
      simp
    · simp only [Nat.sub_self, if_true, BitVec.getLsbD_or]
      have : ti1s.getLsbD 7 = true := rfl
      rw [this]
      simp

example : captureFilter (configureInput false {} 4 1 2 .both 0x2b true) 4 = 11 ∧
    capturePrescaler (configureInput false {} 4 1 2 .both 0x2b true) 4 = 2 := by decide +kernel

/-- `configureInputChannel(channel, filter)` sets the filter and enables the channel, and leaves everything else. -/
theorem C209_filter (r : Regs) (c : Nat) (filter : BitVec 8) (hc : 1 ≤ c) (hc2 : c ≤ 4) :
    let r' := configureFilter r c filter
    captureFilter r' c = filter.toNat % 16 ∧ out r' c 0 = true ∧
    (∀ k, Own k → k < 4 ∨ 8 ≤ k → bit r' c k = bit r c k) ∧ (∀ k, k < 4 → k ≠ 0 → out r' c k = out r c k) ∧
    compareOf r' c = compareOf r c ∧ OthersSame r r' c := by
  have hch : c ≤ channels false := by simpa [channels] using hc2
  have hce : ∀ j, 4 ≤ j → cc1e.getLsbD j = false := small_get _ (by decide)
  have ek : ∀ k, k < 4 → cc1e.getLsbD k = decide (k = 0) := by
    intro k hk
    interval_cases k <;> rfl
  simp only [configureFilter]
  set flags : Word := (filter.setWidth 32 &&& 0xf) <<< 4 with hfl
  have hfget : ∀ k, flags.getLsbD k = (decide (4 ≤ k ∧ k < 8) && filter.getLsbD (k - 4)) := by
    intro k
    rw [hfl]
    simp only [BitVec.getLsbD_and, BitVec.getLsbD_shiftLeft, BitVec.getLsbD_setWidth, f_get]
    by_cases hk : k < 32
    · interval_cases k <;> simp [BitVec.getLsbD_of_ge, -BitVec.getLsbD_eq_getElem]
    · have e3 : ¬ (4 ≤ k ∧ k < 8) := by omega
      simp only [hk, e3, decide_false, Bool.false_and]
  have hown : ∀ j, ¬ Own j → flags.getLsbD j = false := by
    intro j hj
    rw [hfget]
    unfold Own at hj
    have e3 : ¬ (4 ≤ j ∧ j < 8) := by omega
    simp only [e3, decide_false, Bool.false_and]
  set r1 := updateCcmr false (clearCcer r (c - 1) cc1e) (c - 1) flags 0xf0 with hr1
  have hbits : ∀ c' k, 1 ≤ c' → c' ≤ 6 → Own k → bit (setCcer r1 (c - 1) cc1e) c' k =
      if c' = c then (flags.getLsbD k || (bit r c k && !decide (4 ≤ k ∧ k < 8))) else bit r c' k := by
    intro c' k h1 h2 hk
    rw [setCcer_bit, hr1, updateCcmr_bit false _ _ _ c c' k hc hch h1 h2 hk hown own_f0, f0_get, clearCcer_bit]
  have hout : ∀ c' k, 1 ≤ c' → c' ≤ 6 → k < 4 → out (setCcer r1 (c - 1) cc1e) c' k =
      if c' = c then (out r c k || decide (k = 0)) else out r c' k := by
    intro c' k h1 h2 hk
    rw [set_out _ c c' k _ hce hc h1 h2 hk, hr1, update_out, clear_out r c c' k _ hce hc h1 h2 hk, ek k hk]
    by_cases h : c' = c
    · by_cases hk0 : k = 0
      · simp [h, hk0]
      · simp [h, hk0]
    · simp [h]
  have hcmp : compareOf (setCcer r1 (c - 1) cc1e) = compareOf r := by
    rw [set_compare, hr1, update_compare, clear_compare]
  refine ⟨?_, ?_, ?_, ?_, by rw [hcmp], ?_⟩
  · unfold captureFilter
    rw [hbits c 4 hc (by omega) (by unfold Own; omega), hbits c 5 hc (by omega) (by unfold Own; omega),
      hbits c 6 hc (by omega) (by unfold Own; omega), hbits c 7 hc (by omega) (by unfold Own; omega), hfget, hfget, hfget, hfget]
    simp [-BitVec.getLsbD_eq_getElem]
    simp only [BitVec.getLsbD, Nat.toNat_testBit]
    omega
  · rw [hout c 0 hc (by omega) (by omega), if_pos rfl]
    simp
  · intro k hk h
    have : ¬ (4 ≤ k ∧ k < 8) := by omega
    rw [hbits c k hc (by omega) hk, if_pos rfl, hfget]
    simp [this]
  · intro k hk h
    rw [hout c k hc (by omega) hk, if_pos rfl]
    simp [h]
  · intro c' h1 h2 h3
    refine ⟨fun k hk => ?_, fun k hk => ?_, by rw [hcmp]⟩
    · rw [hbits c' k h1 h2 hk, if_neg h3]
    · rw [hout c' k h1 h2 hk, if_neg h3]

example : captureFilter (configureFilter {} 3 0x1c) 3 = 12 := by decide +kernel

/-- `isChannelConfiguredAsInput` tells inputs from outputs, for every channel and state. -/
theorem C209_isInput (r : Regs) (c : Nat) (hc : 1 ≤ c) (hc2 : c ≤ 4) :
    isChannelConfiguredAsInput r c = decide (selection r c ≠ 0) := by
  have key : ∀ (w : Word) (o : Nat), o = 0 ∨ o = 8 →
      (w &&& (if o = 0 then 0x3 else 0x300) != 0) = decide ((w.getLsbD (o + 0)).toNat + 2 * (w.getLsbD (o + 1)).toNat ≠ 0) := by
    intro w o ho
    have hz : ∀ m : Word, (∀ j, m.getLsbD j = decide (j = o ∨ j = o + 1)) →
        (w &&& m != 0) = decide ((w.getLsbD (o + 0)).toNat + 2 * (w.getLsbD (o + 1)).toNat ≠ 0) := by
      intro m hm
      by_cases h : w &&& m = 0
      · have h0 : (w &&& m).getLsbD o = false := by rw [h]; simp
        have h1 : (w &&& m).getLsbD (o + 1) = false := by rw [h]; simp
        rw [BitVec.getLsbD_and, hm] at h0 h1
        simp at h0 h1
        simp [h, h0, h1]
      · have : ∃ j, j < 32 ∧ (w &&& m).getLsbD j = true := by
          by_contra hne
          apply h
          apply BitVec.eq_of_getLsbD_eq
          intro j hj
          have := fun ht => hne ⟨j, hj, ht⟩
          simpa using this
        obtain ⟨j, _, hj⟩ := this
        rw [BitVec.getLsbD_and, hm] at hj
        simp only [Bool.and_eq_true, decide_eq_true_eq] at hj
        rcases hj with ⟨hw, rfl | rfl⟩
        · simp only [hw, ne_eq, Nat.add_zero, Bool.toNat_true]
          simp
          exact h
        · simp [hw]
          exact h
    rcases ho with ho | ho
    · subst ho
      refine hz _ (fun j => ?_)
      by_cases h : j < 32
      · interval_cases j <;> rfl
      · rw [BitVec.getLsbD_of_ge _ _ (by omega)]
        simp
        omega
    · subst ho
      refine hz _ (fun j => ?_)
      by_cases h : j < 32
      · interval_cases j <;> rfl
      · rw [BitVec.getLsbD_of_ge _ _ (by omega)]
        simp
        omega
  unfold selection bit ccmr base
  interval_cases c
  · exact key r.ccmr1 0 (Or.inl rfl)
  · exact key r.ccmr1 8 (Or.inr rfl)
  · exact key r.ccmr2 0 (Or.inl rfl)
  · exact key r.ccmr2 8 (Or.inr rfl)

example : isChannelConfiguredAsInput (configureInput false {} 4 1 2 .both 0x2b true) 4 = true := by decide +kernel

/-! ## C210: compare values -/

/-- `getCompareValue` gives back what `setCompareValue` got, for the channels 1 to 4. -/
theorem C210_compare_partial (ext : Bool) (r : Regs) (c : Nat) (v : Word) (hc : 1 ≤ c) (hc2 : c ≤ 4) :
    getCompareValue (setCompareValue ext r c v) c = v ∧
    ∀ c', 1 ≤ c' → c' ≤ 4 → c' ≠ c → getCompareValue (setCompareValue ext r c v) c' = getCompareValue r c' := by
  have e : (setCompareValue ext r c v).words = Function.update r.words (c - 1) v := by
    unfold setCompareValue
    cases ext <;> simp [hc2]
  unfold getCompareValue
  rw [e]
  refine ⟨by simp, fun c' h1 h2 h3 => ?_⟩
  rw [Function.update_of_ne]
  omega

example : getCompareValue (setCompareValue true {} 3 500) 3 = 500 := by decide +kernel

/-- For the channels 5 and 6 of an extended timer it reads another register: after `setCompareValue(5, 500)` it
gives the dead time register. -/
theorem C210_channel5_counterexample (r : Regs) (v : Word) :
    getCompareValue (setCompareValue true r 5 v) 5 = r.words 4 ∧ compareOf (setCompareValue true r 5 v) 5 = v := ⟨rfl, rfl⟩

/-! ## C211: dead time -/

/-- `setDeadTime(resolution, deadTime)` sets the dead time that the range gives, for every value of the range, and
leaves the rest of the register. -/
theorem C211_deadTime (bdtr : Word) (res : Resolution) (n : BitVec 8) (h : n.toNat < rangeSize res) :
    deadTime ((setDeadTime bdtr res n).toNat % 256) = rangeStart res + rangeStep res * n.toNat ∧
    ∀ i, 8 ≤ i → (setDeadTime bdtr res n).getLsbD i = bdtr.getLsbD i := by
  have hsmall : ∀ i, 8 ≤ i → ((n &&& res.bitmask).setWidth 32 ||| res.value).getLsbD i = false := by
    intro i hi
    rw [BitVec.getLsbD_or, BitVec.getLsbD_setWidth, BitVec.getLsbD_of_ge _ _ hi]
    have : res.value.getLsbD i = false := by
      rw [BitVec.getLsbD]
      apply Nat.testBit_lt_two_pow
      calc res.value.toNat < 2 ^ 8 := by cases res <;> decide
        _ ≤ 2 ^ i := Nat.pow_le_pow_right (by omega) hi
    rw [this]
    simp
  have hlow : (setDeadTime bdtr res n).toNat % 256 = ((n &&& res.bitmask).setWidth 32 ||| res.value).toNat := by
    have e : BitVec.setWidth 8 (setDeadTime bdtr res n) = BitVec.setWidth 8 ((n &&& res.bitmask).setWidth 32 ||| res.value) := by
      apply BitVec.eq_of_getLsbD_eq
      intro i hi
      unfold setDeadTime
      simp only [BitVec.getLsbD_setWidth, BitVec.getLsbD_or, BitVec.getLsbD_and, BitVec.getLsbD_not, ff_get]
      simp [hi]
    have e2 := congrArg BitVec.toNat e
    rw [BitVec.toNat_setWidth, BitVec.toNat_setWidth] at e2
    have hlt : ((n &&& res.bitmask).setWidth 32 ||| res.value).toNat < 256 := by
      rw [BitVec.toNat_or]
      refine Nat.or_lt_two_pow (n := 8) ?_ ?_
      · rw [BitVec.toNat_setWidth]
        exact Nat.lt_of_le_of_lt (Nat.mod_le _ _) (n &&& res.bitmask).isLt
      · cases res <;> decide
    have : (2 : Nat) ^ 8 = 256 := rfl
    rw [this, Nat.mod_eq_of_lt hlt] at e2
    exact e2
  refine ⟨?_, ?_⟩
  · rw [hlow]
    revert n
    have key : ∀ n : BitVec 8, n.toNat < rangeSize res →
        deadTime ((n &&& res.bitmask).setWidth 32 ||| res.value).toNat = rangeStart res + rangeStep res * n.toNat := by
      cases res <;> decide +kernel
    intro n h _ _
    exact key n h
  · intro i hi
    have := hsmall i hi
    unfold setDeadTime
    rw [BitVec.getLsbD_or, this, BitVec.getLsbD_and, BitVec.getLsbD_not, ff_get]
    by_cases h32 : i < 32
    · have : ¬ i < 8 := by omega
      simp [h32, this]
    · rw [BitVec.getLsbD_of_ge _ _ (by omega)]
      simp

example : deadTime ((setDeadTime 0xffff .step8 3).toNat % 256) = 280 := by decide +kernel

/-! ## C212: idle states -/

/-- From a register without other settings and without idle states, `setOutputIdleState` sets the two idle states of the
channel, and nothing else. -/
theorem C212_idle_partial (c : Nat) (idle idleN : Bool) (hc : 1 ≤ c) (hc2 : c ≤ 4) :
    (setOutputIdleState 0 c idle idleN).getLsbD (idleBit c false) = idle ∧
    (setOutputIdleState 0 c idle idleN).getLsbD (idleBit c true) = idleN ∧
    ∀ i, i ≠ idleBit c false → i ≠ idleBit c true → (setOutputIdleState 0 c idle idleN).getLsbD i = false := by
  have key : ∀ (i : Fin 32), i.val ≠ idleBit c false → i.val ≠ idleBit c true →
      (setOutputIdleState 0 c idle idleN).getLsbD i = false := by
    interval_cases c <;> cases idle <;> cases idleN <;> decide +kernel
  refine ⟨?_, ?_, ?_⟩
  · interval_cases c <;> cases idle <;> cases idleN <;> rfl
  · interval_cases c <;> cases idle <;> cases idleN <;> rfl
  · intro i h1 h2
    by_cases h : i < 32
    · exact key ⟨i, h⟩ h1 h2
    · rw [BitVec.getLsbD_of_ge _ _ (by omega)]

example : setOutputIdleState 0 2 true true = 0xc00 := by decide +kernel

/-- An idle state that is set cannot be reset. -/
theorem C212_reset_counterexample :
    (setOutputIdleState (setOutputIdleState 0 1 true false) 1 false false).getLsbD (idleBit 1 false) = true := by decide +kernel

/-- Setting the idle state of one channel loses the idle states of the others, and the master mode. -/
theorem C212_others_counterexample :
    let cr2 := setOutputIdleState 0x20 1 true false
    cr2.getLsbD 5 = false ∧ cr2.getLsbD (idleBit 1 false) = true ∧
    (setOutputIdleState cr2 2 true false).getLsbD (idleBit 1 false) = false := by decide +kernel

/-! ## C213: flags -/

/-- `acknowledgeInterruptFlags` clears the given flags and no other, whatever has been set in between. -/
theorem C213_acknowledge (sr flags : Word) (i : Nat) :
    (writeSr sr (acknowledgeWord flags)).getLsbD i = (sr.getLsbD i && !flags.getLsbD i) := by
  unfold writeSr acknowledgeWord
  rw [BitVec.getLsbD_and, BitVec.getLsbD_not]
  by_cases h : i < 32
  · simp [h]
  · rw [BitVec.getLsbD_of_ge sr i (by omega)]
    simp

example : writeSr 0x5 (acknowledgeWord 0x1) = 0x4 := by decide +kernel

end Props.Stm32Timer
