import Verif.Spec.FdcanFilter
import Mathlib.Tactic.IntervalCases
/-
Claims C174 and C175 about the filters and the message RAM of the STM32 FDCAN driver.
-/
set_option autoImplicit false
namespace Props.FdcanFilter
open Modm.FdcanFilter Spec.FdcanFilter

/-! ## Words -/

private theorem std_action (t : FilterType) (c : FilterConfig) (a b : BitVec 16) :
    (standardWord t c a b).extractLsb' 27 3 = (c.bits.extractLsb' 27 3) := by
  apply BitVec.eq_of_getLsbD_eq; intro i hi
  simp only [standardWord, BitVec.getLsbD_extractLsb', BitVec.getLsbD_or, BitVec.getLsbD_and, BitVec.getLsbD_shiftLeft, BitVec.getLsbD_setWidth]
  cases t <;> cases c <;> interval_cases i <;> simp [FilterType.bits, FilterConfig.bits]

private theorem std_kind (t : FilterType) (c : FilterConfig) (a b : BitVec 16) :
    (standardWord t c a b).extractLsb' 30 2 = (t.bits.extractLsb' 30 2) := by
  apply BitVec.eq_of_getLsbD_eq; intro i hi
  simp only [standardWord, BitVec.getLsbD_extractLsb', BitVec.getLsbD_or, BitVec.getLsbD_and, BitVec.getLsbD_shiftLeft, BitVec.getLsbD_setWidth]
  cases t <;> cases c <;> interval_cases i <;> simp [FilterType.bits, FilterConfig.bits]

private theorem std_a (t : FilterType) (c : FilterConfig) (a b : BitVec 16) :
    (standardWord t c a b).extractLsb' 16 11 = a.setWidth 11 := by
  apply BitVec.eq_of_getLsbD_eq; intro i hi
  simp only [standardWord, BitVec.getLsbD_extractLsb', BitVec.getLsbD_or, BitVec.getLsbD_and, BitVec.getLsbD_shiftLeft, BitVec.getLsbD_setWidth]
  cases t <;> cases c <;> interval_cases i <;> simp [FilterType.bits, FilterConfig.bits]

private theorem std_b (t : FilterType) (c : FilterConfig) (a b : BitVec 16) :
    (standardWord t c a b).extractLsb' 0 11 = b.setWidth 11 := by
  apply BitVec.eq_of_getLsbD_eq; intro i hi
  simp only [standardWord, BitVec.getLsbD_extractLsb', BitVec.getLsbD_or, BitVec.getLsbD_and, BitVec.getLsbD_shiftLeft, BitVec.getLsbD_setWidth]
  cases t <;> cases c <;> interval_cases i <;> simp [FilterType.bits, FilterConfig.bits]

private theorem std_element (t : FilterType) (c : FilterConfig) (a b : BitVec 16) :
    standardElement (standardWord t c a b) = filterOf c t (a.setWidth 11) (b.setWidth 11) := by
  unfold standardElement
  rw [std_action, std_kind, std_a, std_b]
  cases t <;> cases c <;> rfl

private theorem ext_action (c : FilterConfig) (a : BitVec 32) :
    (extendedWord0 c a).extractLsb' 29 3 = (c.bits.extractLsb' 27 3) := by
  apply BitVec.eq_of_getLsbD_eq; intro i hi
  simp only [extendedWord0, BitVec.getLsbD_extractLsb', BitVec.getLsbD_or, BitVec.getLsbD_and, BitVec.getLsbD_shiftLeft]
  cases c <;> interval_cases i <;> simp [FilterConfig.bits]

private theorem ext_a (c : FilterConfig) (a : BitVec 32) : (extendedWord0 c a).extractLsb' 0 29 = a.setWidth 29 := by
  apply BitVec.eq_of_getLsbD_eq; intro i hi
  simp only [extendedWord0, BitVec.getLsbD_extractLsb', BitVec.getLsbD_or, BitVec.getLsbD_and, BitVec.getLsbD_shiftLeft, BitVec.getLsbD_setWidth]
  cases c <;> interval_cases i <;> simp [FilterConfig.bits]

private theorem ext_kind (t : FilterType) (b : BitVec 32) : (extendedWord1 t b).extractLsb' 30 2 = (t.bits.extractLsb' 30 2) := by
  apply BitVec.eq_of_getLsbD_eq; intro i hi
  simp only [extendedWord1, BitVec.getLsbD_extractLsb', BitVec.getLsbD_or, BitVec.getLsbD_and]
  cases t <;> interval_cases i <;> simp [FilterType.bits]

private theorem ext_b (t : FilterType) (b : BitVec 32) : (extendedWord1 t b).extractLsb' 0 29 = b.setWidth 29 := by
  apply BitVec.eq_of_getLsbD_eq; intro i hi
  simp only [extendedWord1, BitVec.getLsbD_extractLsb', BitVec.getLsbD_or, BitVec.getLsbD_and, BitVec.getLsbD_setWidth]
  cases t <;> interval_cases i <;> simp [FilterType.bits]

private theorem ext_element (t : FilterType) (c : FilterConfig) (a b : BitVec 32) :
    extendedElement (extendedWord0 c a) (extendedWord1 t b) = filterOf c t (a.setWidth 29) (b.setWidth 29) := by
  unfold extendedElement
  rw [ext_action, ext_kind, ext_a, ext_b]
  cases t <;> cases c <;> rfl

private theorem ext_zero (w : BitVec 32) : extendedElement 0#32 w = none := by rfl

private theorem std_zero : standardElement 0#32 = none := by rfl

/-! ## Places -/

private theorem sfa (base k i : Nat) : standardFilter base k i = base + size * k + FLSSA + 4 * i := by
  simp only [standardFilter, FilterListStandard, RamBase, Size, size, FLSSA, StandardFilterCount, StandardFilterSize, ExtendedFilterCount,
    ExtendedFilterSize, RxFifoElements, RxFifoElementSize, TxEventFifoEntries, TxEventFifoEntrySize, TxFifoElements, TxFifoElementSize]
  omega

private theorem efa (base k i : Nat) : extendedFilter base k i = base + size * k + FLESA + 8 * i := by
  simp only [extendedFilter, FilterListExtended, FilterListStandard, RamBase, Size, size, FLESA, StandardFilterCount, StandardFilterSize, ExtendedFilterCount,
    ExtendedFilterSize, RxFifoElements, RxFifoElementSize, TxEventFifoEntries, TxEventFifoEntrySize, TxFifoElements, TxFifoElementSize]
  omega

/-! ## The message RAM shows what the user wants -/

private structure Shows (base k : Nat) (ram : Ram) (w : Wish) : Prop where
  slen : w.standard.length = 28
  elen : w.extended.length = 8
  std : ∀ i, (h : i < w.standard.length) → standardElement (ram (base + size * k + FLSSA + 4 * i)) = w.standard[i]
  ext : ∀ i, (h : i < w.extended.length) →
    extendedElement (ram (base + size * k + FLESA + 8 * i)) (ram (base + size * k + FLESA + 8 * i + 4)) = w.extended[i]

open Classical in
private theorem clearStd_read (base k : Nat) (n : Nat) : ∀ (ram : Ram) (i a : Nat),
    clearStandardLoop base k ram i n a = if ∃ j, i ≤ j ∧ j < i + n ∧ a = standardFilter base k j then 0#32 else ram a := by
  induction n with
  | zero => intro ram i a; simp [clearStandardLoop]; intro x h1 h2; omega
  | succ n ih =>
    intro ram i a
    rw [clearStandardLoop, ih]
    by_cases h : ∃ j, i + 1 ≤ j ∧ j < i + 1 + n ∧ a = standardFilter base k j
    · rw [if_pos h, if_pos]
      obtain ⟨j, h1, h2, h3⟩ := h
      exact ⟨j, by omega, by omega, h3⟩
    · rw [if_neg h]
      by_cases ha : a = standardFilter base k i
      · rw [if_pos ⟨i, le_refl _, by omega, ha⟩]; simp [Ram.write, ha]
      · rw [if_neg]
        · simp [Ram.write, ha]
        · rintro ⟨j, h1, h2, h3⟩
          rcases Nat.lt_or_ge i j with hj | hj
          · exact h ⟨j, hj, by omega, h3⟩
          · have : j = i := by omega
            exact ha (this ▸ h3)

open Classical in
private theorem clearExt_read (base k : Nat) (n : Nat) : ∀ (ram : Ram) (i a : Nat),
    clearExtendedLoop base k ram i n a = if ∃ j, i ≤ j ∧ j < i + n ∧ a = extendedFilter base k j then 0#32 else ram a := by
  induction n with
  | zero => intro ram i a; simp [clearExtendedLoop]; intro x h1 h2; omega
  | succ n ih =>
    intro ram i a
    rw [clearExtendedLoop, ih]
    by_cases h : ∃ j, i + 1 ≤ j ∧ j < i + 1 + n ∧ a = extendedFilter base k j
    · rw [if_pos h, if_pos]
      obtain ⟨j, h1, h2, h3⟩ := h
      exact ⟨j, by omega, by omega, h3⟩
    · rw [if_neg h]
      by_cases ha : a = extendedFilter base k i
      · rw [if_pos ⟨i, le_refl _, by omega, ha⟩]; simp [Ram.write, ha]
      · rw [if_neg]
        · simp [Ram.write, ha]
        · rintro ⟨j, h1, h2, h3⟩
          rcases Nat.lt_or_ge i j with hj | hj
          · exact h ⟨j, hj, by omega, h3⟩
          · have : j = i := by omega
            exact ha (this ▸ h3)

private theorem clearStd_hit (base k : Nat) (ram : Ram) (i : Nat) (hi : i < 28) :
    clearStandard base k ram (base + size * k + FLSSA + 4 * i) = 0#32 := by
  rw [clearStandard, clearStd_read, if_pos ⟨i, by omega, by simp [StandardFilterCount]; exact hi, (sfa base k i).symm⟩]

private theorem clearStd_miss (base k : Nat) (ram : Ram) (a : Nat)
    (h : a < base + size * k ∨ base + size * k + FLESA ≤ a) : clearStandard base k ram a = ram a := by
  rw [clearStandard, clearStd_read, if_neg]
  rintro ⟨j, h1, h2, h3⟩
  rw [sfa] at h3
  simp only [StandardFilterCount, FLSSA, FLESA] at *
  omega

private theorem clearExt_hit (base k : Nat) (ram : Ram) (i : Nat) (hi : i < 8) :
    clearExtended base k ram (base + size * k + FLESA + 8 * i) = 0#32 := by
  rw [clearExtended, clearExt_read, if_pos ⟨i, by omega, by simp [ExtendedFilterCount]; exact hi, (efa base k i).symm⟩]

private theorem clearExt_miss (base k : Nat) (ram : Ram) (a : Nat)
    (h : a < base + size * k + FLESA ∨ base + size * k + F0SA ≤ a) : clearExtended base k ram a = ram a := by
  rw [clearExtended, clearExt_read, if_neg]
  rintro ⟨j, h1, h2, h3⟩
  rw [efa] at h3
  simp only [ExtendedFilterCount, F0SA, FLESA] at *
  omega

private theorem call_shows {base k : Nat} {ram : Ram} {w : Wish} (h : Shows base k ram w) (c : Call) :
    Shows base k (call base k ram c).1 (w.call c) := by
  have hs := h.slen
  have he := h.elen
  cases c with
  | standard i c t a b =>
    simp only [call, Wish.call, setStandard]
    split
    · rename_i hi
      simp only [StandardFilterCount, ExtendedFilterCount] at hi
      rw [List.set_eq_of_length_le (by omega)]
      exact h
    · rename_i hi
      simp only [StandardFilterCount, ExtendedFilterCount] at hi
      refine ⟨by simpa using hs, he, fun j hj => ?_, fun j hj => ?_⟩
      · simp only [Ram.write, sfa, List.getElem_set]
        by_cases hji : j = i.toNat
        · subst hji
          rw [if_pos rfl, if_pos rfl]
          exact std_element t c a b
        · rw [if_neg (by omega), if_neg (by omega)]
          exact h.std j (by simpa using hj)
      · have hj' : j < 8 := by simpa [he] using hj
        simp only [Ram.write, sfa]
        rw [if_neg (by simp only [FLSSA, FLESA]; omega), if_neg (by simp only [FLSSA, FLESA]; omega)]
        exact h.ext j hj
  | extended i c t a b =>
    simp only [call, Wish.call, setExtended]
    split
    · rename_i hi
      simp only [StandardFilterCount, ExtendedFilterCount] at hi
      rw [List.set_eq_of_length_le (by omega)]
      exact h
    · rename_i hi
      simp only [StandardFilterCount, ExtendedFilterCount] at hi
      refine ⟨hs, by simpa using he, fun j hj => ?_, fun j hj => ?_⟩
      · have hj' : j < 28 := by simpa [hs] using hj
        simp only [Ram.write, efa]
        rw [if_neg (by simp only [FLSSA, FLESA]; omega), if_neg (by simp only [FLSSA, FLESA]; omega)]
        exact h.std j hj
      · simp only [Ram.write, efa, List.getElem_set]
        by_cases hji : j = i.toNat
        · subst hji
          rw [if_neg (by omega), if_pos rfl, if_pos rfl, if_pos rfl]
          exact ext_element t c a b
        · rw [if_neg (by omega), if_neg (by omega), if_neg (by omega), if_neg (by omega), if_neg (by omega)]
          exact h.ext j (by simpa using hj)
  | clearStandard =>
    simp only [call, Wish.call]
    refine ⟨by simp, he, fun j hj => ?_, fun j hj => ?_⟩
    · rw [clearStd_hit _ _ _ _ (by simpa using hj), std_zero]; exact (List.getElem_replicate _).symm
    · rw [clearStd_miss _ _ _ _ (by omega), clearStd_miss _ _ _ _ (by omega)]
      exact h.ext j hj
  | clearExtended =>
    simp only [call, Wish.call]
    refine ⟨hs, by simp, fun j hj => ?_, fun j hj => ?_⟩
    · have hj' : j < 28 := by simpa [hs] using hj
      rw [clearExt_miss _ _ _ _ (by simp only [FLSSA, FLESA, F0SA]; omega)]
      exact h.std j hj
    · rw [clearExt_hit _ _ _ _ (by simpa using hj), ext_zero]; exact (List.getElem_replicate _).symm

private theorem calls_shows {base k : Nat} (cs : List Call) : ∀ {ram : Ram} {w : Wish}, Shows base k ram w →
    Shows base k (calls base k ram cs).1 (w.calls cs) := by
  induction cs with
  | nil => intro ram w h; exact h
  | cons c cs ih => intro ram w h; exact ih (call_shows h c)

private theorem calls_answers (base k : Nat) (cs : List Call) : ∀ ram : Ram, (calls base k ram cs).2 = cs.map answer := by
  induction cs with
  | nil => intro ram; rfl
  | cons c cs ih =>
    intro ram
    simp only [calls, List.map_cons, ih]
    congr 1
    cases c <;> simp only [call, answer, setStandard, setExtended] <;> (try split) <;> simp only [StandardFilterCount, ExtendedFilterCount] at * <;>
      simp <;> omega

private theorem call_outside (base k : Nat) (ram : Ram) (c : Call) (a : Nat) (h : a < base + size * k ∨ base + size * k + F0SA ≤ a) :
    (call base k ram c).1 a = ram a := by
  cases c with
  | standard i c t x y =>
    simp only [call, setStandard]
    split
    · rfl
    · rename_i hi
      simp only [StandardFilterCount, ExtendedFilterCount] at hi
      simp only [Ram.write, sfa]
      rw [if_neg]
      simp only [FLSSA, F0SA] at *; omega
  | extended i c t x y =>
    simp only [call, setExtended]
    split
    · rfl
    · rename_i hi
      simp only [StandardFilterCount, ExtendedFilterCount] at hi
      simp only [Ram.write, efa]
      rw [if_neg (by simp only [FLESA, F0SA] at *; omega), if_neg (by simp only [FLESA, F0SA] at *; omega)]
  | clearStandard => exact clearStd_miss _ _ _ _ (by simp only [FLESA, F0SA] at *; omega)
  | clearExtended => exact clearExt_miss _ _ _ _ (by simp only [FLESA, F0SA] at *; omega)

private theorem calls_outside (base k : Nat) (cs : List Call) (a : Nat) (h : a < base + size * k ∨ base + size * k + F0SA ≤ a) :
    ∀ ram : Ram, (calls base k ram cs).1 a = ram a := by
  induction cs with
  | nil => intro ram; rfl
  | cons c cs ih => intro ram; exact (ih _).trans (call_outside base k ram c a h)

private theorem shows_fates {base k : Nat} {ram : Ram} {w : Wish} (h : Shows base k ram w) (overwrite : Bool) :
    (∀ id, standardFate base k (RXGFC overwrite) ram id = w.standardFate id) ∧
    (∀ id, extendedFate base k (RXGFC overwrite) ram id = w.extendedFate id) := by
  have hs : ((List.range 28).map fun i => standardElement (ram (base + size * k + FLSSA + 4 * i))) = w.standard := by
    apply List.ext_getElem
    · simp [h.slen]
    · intro i h1 h2
      simpa using h.std i h2
  have he : ((List.range 8).map fun i =>
      extendedElement (ram (base + size * k + FLESA + 8 * i)) (ram (base + size * k + FLESA + 8 * i + 4))) = w.extended := by
    apply List.ext_getElem
    · simp [h.elen]
    · intro i h1 h2
      simpa using h.ext i h2
  have n1 : min 28 ((RXGFC overwrite).extractLsb' 16 5).toNat = 28 := by cases overwrite <;> rfl
  have n2 : min 8 ((RXGFC overwrite).extractLsb' 24 4).toNat = 8 := by cases overwrite <;> rfl
  have a1 : nonMatching ((RXGFC overwrite).extractLsb' 4 2) = .rejected := by cases overwrite <;> rfl
  have a2 : nonMatching ((RXGFC overwrite).extractLsb' 2 2) = .rejected := by cases overwrite <;> rfl
  constructor
  · intro id
    simp only [standardFate, n1, a1, hs, Wish.standardFate]
  · intro id
    simp only [extendedFate, n2, a2, he, Wish.extendedFate]

private theorem shows_mixed {base k : Nat} (ram : Ram) :
    Shows base k (clearExtended base k (clearStandard base k ram)) nothing := by
  refine ⟨by simp [nothing], by simp [nothing], fun j hj => ?_, fun j hj => ?_⟩
  · have hj' : j < 28 := by simpa [nothing] using hj
    rw [clearExt_miss _ _ _ _ (by simp only [FLSSA, FLESA, F0SA]; omega), clearStd_hit _ _ _ _ hj', std_zero]; exact (List.getElem_replicate _).symm
  · have hj' : j < 8 := by simpa [nothing] using hj
    rw [clearExt_hit _ _ _ _ hj', ext_zero]; exact (List.getElem_replicate _).symm

/-- **C174.** Once the filters have been cleared, whatever calls follow, every frame has the fate the user asked for: the first filter
that is set and matches decides, and what matches none is rejected.  A call answers whether there is a filter of that number, and
nothing outside the lists of filters of this controller is written. -/
theorem C174_fates_partial (base k : Nat) (overwrite : Bool) (ram : Ram) (cs : List Call) :
    let r := calls base k ram (.clearStandard :: .clearExtended :: cs)
    (∀ id, standardFate base k (RXGFC overwrite) r.1 id = (nothing.calls cs).standardFate id) ∧
    (∀ id, extendedFate base k (RXGFC overwrite) r.1 id = (nothing.calls cs).extendedFate id) ∧
    r.2 = true :: true :: cs.map answer ∧
    (∀ a, a < base + size * k ∨ base + size * k + F0SA ≤ a → r.1 a = ram a) := by
  intro r
  have h : Shows base k r.1 (nothing.calls cs) := calls_shows cs (shows_mixed ram)
  obtain ⟨h1, h2⟩ := shows_fates h overwrite
  exact ⟨h1, h2, calls_answers base k _ ram, fun a ha => calls_outside base k _ a ha ram⟩

/-- Three filters: a mask, a range, and a rejection that comes too late; later the first is taken away. -/
private def threeFilters : List Call :=
  [.standard 0 .fifo0 .classic 0x120 0x7f0, .standard 1 .fifo1 .range 0x200 0x2ff, .standard 2 .reject .dual 0x123 0x400]

example : (nothing.calls threeFilters).standardFate 0x123 = .queue false 0 := by decide
example : (nothing.calls threeFilters).standardFate 0x280 = .queue true 1 := by decide
example : (nothing.calls (threeFilters ++ [.standard 0 .disabled .classic 0 0])).standardFate 0x123 = .rejected := by decide

/-- The kinds of filters in terms of numbers. -/
theorem C174_hits {n : Nat} (c : Action) (a b id : BitVec n) :
    ((Filter.mk c .range a b).hits id = true ↔ a.toNat ≤ id.toNat ∧ id.toNat ≤ b.toNat) ∧
    ((Filter.mk c .dual a b).hits id = true ↔ id = a ∨ id = b) ∧
    ((Filter.mk c .classic a b).hits id = true ↔ ∀ i, i < n → b.getLsbD i = true → id.getLsbD i = a.getLsbD i) := by
  refine ⟨by simp [Filter.hits, BitVec.ule], by simp [Filter.hits], ?_⟩
  simp only [Filter.hits, beq_iff_eq]
  constructor
  · intro h i hi hb
    have := congrArg (fun x => BitVec.getLsbD x i) h
    simpa [hb] using this
  · intro h
    apply BitVec.eq_of_getLsbD_eq
    intro i hi
    rw [BitVec.getLsbD_and, BitVec.getLsbD_and]
    cases hb : b.getLsbD i with
    | false => simp
    | true => simp [h i hi hb]

/-- **C174, refuted** without clearing: `initialize` does not clear the filters, and the message RAM keeps its contents over a reset
which is not a power failure.  A program that has not set any filter, or cleared them, gets every frame a former program had asked for. -/
theorem C174_stale_counterexample (base k : Nat) (overwrite : Bool) (ram : Ram) :
    let former := (calls base k ram [.standard 0 .fifo0 .classic 0 0]).1
    (∀ id, standardFate base k (RXGFC overwrite) (calls base k former []).1 id = .queue false 0) ∧
    ∀ id, (nothing.calls []).standardFate id = .rejected := by
  have n1 : min 28 ((RXGFC overwrite).extractLsb' 16 5).toNat = 27 + 1 := by cases overwrite <;> rfl
  have hz : ∀ id : BitVec 11, id &&& 0#11 = 0#11 := fun id => BitVec.and_zero
  constructor
  · intro id
    have he : standardElement (standardWord .classic .fifo0 0 0) = some ⟨.queue0, .classic, 0, 0⟩ := std_element _ _ _ _
    have hw : (calls base k (calls base k ram [.standard 0 .fifo0 .classic 0 0]).1 []).1 (base + size * k + FLSSA + 4 * 0) =
        standardWord .classic .fifo0 0 0 := by
      simp only [calls, call, setStandard]
      rw [if_neg (by decide)]
      simp [sfa, Ram.write]
    simp only [standardFate, n1, List.range_succ_eq_map, List.map_cons, hw, he, decideBy]
    simp [Filter.hits, Action.fate, hz]
  · intro id; rfl

/-! ## The message RAM -/

/-- The things in the message RAM of a controller. -/
inductive Thing
  | standardFilter (i : Nat) (h : i < 28)
  | extendedFilter (i : Nat) (h : i < 8)
  | received (fifo element : Nat) (h : fifo < 2 ∧ element < 3)
  | event (i : Nat) (h : i < 3)
  | transmit (i : Nat) (h : i < 3)

/-- Where the driver sees it, and its size in bytes. -/
def Thing.place (base k : Nat) : Thing → Nat × Nat
  | .standardFilter i _ => (Modm.FdcanFilter.standardFilter base k i, 4)
  | .extendedFilter i _ => (Modm.FdcanFilter.extendedFilter base k i, 8)
  | .received f e _ => (rxFifoElement base k f e, 72)
  | .event i _ => (TxEventFifo base k + i * TxEventFifoEntrySize, 8)
  | .transmit i _ => (txFifoElement base k i, 72)

/-- Where the controller sees it. -/
def Thing.address (base k : Nat) : Thing → Nat
  | .standardFilter i _ => base + size * k + FLSSA + 4 * i
  | .extendedFilter i _ => base + size * k + FLESA + 8 * i
  | .received f e _ => base + size * k + (if f = 0 then F0SA else F1SA) + 72 * e
  | .event i _ => base + size * k + EFSA + 8 * i
  | .transmit i _ => base + size * k + TBSA + 72 * i

/-- **C175.** The driver and the controller agree on the place of everything in the message RAM. -/
theorem C175_places (base k : Nat) (t : Thing) : (t.place base k).1 = t.address base k := by
  cases t with
  | standardFilter i h => exact sfa base k i
  | extendedFilter i h => exact efa base k i
  | received f e h =>
    have : f = 0 ∨ f = 1 := by omega
    rcases this with rfl | rfl <;>
    simp [Thing.place, Thing.address, rxFifoElement, RxFifo0, FilterListExtended, FilterListStandard, RamBase, Size, size, F0SA, F1SA, StandardFilterCount,
      StandardFilterSize, ExtendedFilterCount, ExtendedFilterSize, RxFifoElements, RxFifoElementSize, TxEventFifoEntries, TxEventFifoEntrySize,
      TxFifoElements, TxFifoElementSize] <;> omega
  | event i h =>
    simp only [Thing.place, Thing.address, TxEventFifo, RxFifo1, RxFifo0, FilterListExtended, FilterListStandard, RamBase, Size, size, EFSA, StandardFilterCount,
      StandardFilterSize, ExtendedFilterCount, ExtendedFilterSize, RxFifoElements, RxFifoElementSize, TxEventFifoEntries, TxEventFifoEntrySize,
      TxFifoElements, TxFifoElementSize]
    omega
  | transmit i h =>
    simp only [Thing.place, Thing.address, txFifoElement, TxFifo, TxEventFifo, RxFifo1, RxFifo0, FilterListExtended, FilterListStandard, RamBase, Size, size, TBSA,
      StandardFilterCount, StandardFilterSize, ExtendedFilterCount, ExtendedFilterSize, RxFifoElements, RxFifoElementSize, TxEventFifoEntries,
      TxEventFifoEntrySize, TxFifoElements, TxFifoElementSize]
    omega

/-- **C175.** Different things, or things of different controllers, have no byte in common. -/
theorem C175_apart (base k k' : Nat) (t t' : Thing) (h : (k, t) ≠ (k', t')) (n : Nat)
    (hn : (t.place base k).1 ≤ n ∧ n < (t.place base k).1 + (t.place base k).2) :
    ¬((t'.place base k').1 ≤ n ∧ n < (t'.place base k').1 + (t'.place base k').2) := by
  have hin : ∀ (t : Thing) (k : Nat), base + size * k ≤ t.address base k ∧ t.address base k + (t.place base k).2 ≤ base + size * k + size := by
    intro t k
    cases t <;> simp only [Thing.place, Thing.address, size, FLSSA, FLESA, F0SA, F1SA, EFSA, TBSA] <;> (try split) <;> omega
  rw [C175_places] at hn ⊢
  intro hn'
  rcases Nat.lt_trichotomy k k' with hk | hk | hk
  · have h1 := hin t k
    have h2 := hin t' k'
    have : size * (k + 1) ≤ size * k' := Nat.mul_le_mul_left _ hk
    simp only [size] at *
    omega
  · subst hk
    cases t <;> cases t' <;> simp only [Thing.place, Thing.address, size, FLSSA, FLESA, F0SA, F1SA, EFSA, TBSA, ne_eq, Prod.mk.injEq, true_and,
      Thing.standardFilter.injEq, Thing.extendedFilter.injEq, Thing.received.injEq, Thing.event.injEq, Thing.transmit.injEq] at * <;>
      (repeat' split at *) <;> omega
  · have h1 := hin t k
    have h2 := hin t' k'
    have : size * (k' + 1) ≤ size * k := Nat.mul_le_mul_left _ hk
    simp only [size] at *
    omega

example : (Thing.received 1 2 (by omega)).place 0x4000a400 1 = (0x4000a400 + 0x350 + 0x188 + 144, 72) := by decide

end Props.FdcanFilter
