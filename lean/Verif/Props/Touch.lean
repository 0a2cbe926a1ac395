import Verif.Model.Touch
import Mathlib.Tactic.IntervalCases

set_option autoImplicit false

/-! Touch screens: C306–C309. -/

namespace Props.Touch

open Modm.Touch

/-! ## Raw values of the TSC2046 (C306) -/

theorem shift_back (v : Nat) : (v / 32 * 256 + v * 8 % 256) / 8 = v := by omega

/-- **C306**: for every converter in any state and everything it measures, `getRawValues` returns the sums of three measurements of X (input 5) and of
Y (input 1) and 4095 + Z1 − Z2; nothing that was left from an earlier transfer goes into it.  Afterwards the converter is switched off, so
that it reports the next touch. -/
theorem C306_raw (adc : Nat → Nat → Nat) (h : ∀ k c, adc k c < 4096) (s : Converter) (k first : Nat) :
    (getRawValues adc s k first).1 = (adc (k + 6) 5 + adc (k + 10) 5 + adc (k + 14) 5, adc (k + 4) 1 + adc (k + 8) 1 + adc (k + 12) 1,
      4095 + adc k 3 - adc (k + 2) 4) ∧ (getRawValues adc s k first).2 = ⟨[], 0⟩ := by
  have a0 := h k 3
  have a1 := h (k + 2) 4
  have a2 := h (k + 4) 1
  have a3 := h (k + 6) 5
  have a4 := h (k + 8) 1
  have a5 := h (k + 10) 5
  have a6 := h (k + 12) 1
  have a7 := h (k + 14) 5
  have e : s.transfer adc k bufferWrite = ([s.pending.headD 0, adc k 3 / 32, adc k 3 * 8 % 256, adc (k + 2) 4 / 32, adc (k + 2) 4 * 8 % 256, adc (k + 4) 1 / 32,
      adc (k + 4) 1 * 8 % 256, adc (k + 6) 5 / 32, adc (k + 6) 5 * 8 % 256, adc (k + 8) 1 / 32, adc (k + 8) 1 * 8 % 256, adc (k + 10) 5 / 32, adc (k + 10) 5 * 8 % 256,
      adc (k + 12) 1 / 32, adc (k + 12) 1 * 8 % 256, adc (k + 14) 5 / 32, adc (k + 14) 5 * 8 % 256], ⟨[], 0⟩) := by
    simp [bufferWrite, measureZ1, measureZ2, measureX, measureY, powerdown, Converter.transfer, Converter.byte]
  simp only [getRawValues, e, reading, List.getD_cons_succ, List.getD_cons_zero, Nat.reduceMul, Nat.reduceAdd, shift_back, Prod.mk.injEq, and_true]
  omega

/-- **C306** (ranges): the sums have less than 14 bits, so they fit every type they go through. -/
theorem C306_range (adc : Nat → Nat → Nat) (h : ∀ k c, adc k c < 4096) (s : Converter) (k first : Nat) :
    (getRawValues adc s k first).1.1 ≤ 12285 ∧ (getRawValues adc s k first).1.2.1 ≤ 12285 ∧ (getRawValues adc s k first).1.2.2 ≤ 8190 := by
  rw [(C306_raw adc h s k first).1]
  have a0 := h k 3
  have a2 := h (k + 4) 1
  have a3 := h (k + 6) 5
  have a4 := h (k + 8) 1
  have a5 := h (k + 10) 5
  have a6 := h (k + 12) 1
  have a7 := h (k + 14) 5
  refine ⟨?_, ?_, ?_⟩ <;> simp only <;> omega

/-- **C306** (touched): `isTouched` holds exactly if 4095 + Z1 − Z2 is above the threshold. -/
theorem C306_touched (cal : Calibration) (adc : Nat → Nat → Nat) (h : ∀ k c, adc k c < 4096) (s : Converter) (k first : Nat) :
    isTouched cal adc s k first = true ↔ cal.thresholdZ + adc (k + 2) 4 < 4095 + adc k 3 := by
  rw [isTouched, (C306_raw adc h s k first).1]
  have a1 := h (k + 2) 4
  simp only [decide_eq_true_eq]
  omega

example : (getRawValues (fun k c => 100 * c + k) ⟨[7, 9], 3⟩ 20 0xAA).1 = (526 + 530 + 534, 124 + 128 + 132, 4095 + 320 - 422) := by decide

/-! ## Positions (C307) -/

/-- The documented position: raw · factor / 1000000 + offset, limited to 0 and the maximum -/
def position (raw : Nat) (factor offset : Int) (limit : Nat) : Nat := min ((raw * factor).tdiv 1000000 + offset).toNat limit

/-- **C307**: the position is the documented one if raw · factor fits into 32 bits and the result is not negative.  Missing: the other cases, see the two
counterexamples. -/
theorem C307_position_partial (raw : Nat) (factor offset : Int) (limit : Nat) (h1 : -2 ^ 31 ≤ raw * factor) (h2 : raw * factor < 2 ^ 31)
    (ho : offset < 2 ^ 15) (h3 : 0 ≤ (raw * factor).tdiv 1000000 + offset) : scale raw factor offset limit = some (position raw factor offset limit) := by
  unfold scale position
  generalize hp : (raw : Int) * factor = p at *
  rw [if_neg (by omega)]
  have hd : p.tdiv 1000000 ≤ 2147 := by
    rcases Int.lt_or_le p 0 with q | q
    · have : p.tdiv 1000000 ≤ 0 := by
        rw [show p = -(-p) by omega, Int.neg_tdiv, Int.tdiv_eq_ediv_of_nonneg (by omega)]
        omega
      omega
    · rw [Int.tdiv_eq_ediv_of_nonneg q]
      omega
  congr 3
  omega

/-- **C307** (factors): with factors from 0 to 0.174803 nothing overflows for any measurement. -/
theorem C307_defined (cal : Calibration) (adc : Nat → Nat → Nat) (h : ∀ k c, adc k c < 4096) (s : Converter) (k first : Nat)
    (hx : 0 ≤ cal.factorX ∧ cal.factorX ≤ 174803) (hy : 0 ≤ cal.factorY ∧ cal.factorY ≤ 174803) : (getTouchPosition cal adc s k first).isSome = true := by
  obtain ⟨r1, r2, _⟩ := C306_range adc h s k first
  have key : ∀ (raw : Nat) (f o : Int) (m : Nat), raw ≤ 12285 → 0 ≤ f → f ≤ 174803 → ∃ v, scale raw f o m = some v := by
    intro raw f o m h1 h2 h3
    have a : (0 : Int) ≤ raw * f := Int.mul_nonneg (by omega) h2
    have b : (raw : Int) * f ≤ 12285 * 174803 := Int.mul_le_mul (by omega) h3 h2 (by omega)
    exact ⟨_, by unfold scale; rw [if_neg (by omega)]⟩
  obtain ⟨x, ex⟩ := key _ cal.factorX cal.offsetX cal.maxX r1 hx.1 hx.2
  obtain ⟨y, ey⟩ := key _ cal.factorY cal.offsetY cal.maxY r2 hy.1 hy.2
  simp only [getTouchPosition, ex, ey, Option.isSome_some]

/-- **C307** (both axes): with such factors and offsets that are not negative, the reported point is the documented one in both coordinates, for all
measurements. -/
theorem C307_touch_partial (cal : Calibration) (adc : Nat → Nat → Nat) (h : ∀ k c, adc k c < 4096) (s : Converter) (k first : Nat)
    (hx : 0 ≤ cal.factorX ∧ cal.factorX ≤ 174803) (hy : 0 ≤ cal.factorY ∧ cal.factorY ≤ 174803) (ox : 0 ≤ cal.offsetX ∧ cal.offsetX < 2 ^ 15)
    (oy : 0 ≤ cal.offsetY ∧ cal.offsetY < 2 ^ 15) :
    getTouchPosition cal adc s k first = some (position (adc (k + 6) 5 + adc (k + 10) 5 + adc (k + 14) 5) cal.factorX cal.offsetX cal.maxX,
      position (adc (k + 4) 1 + adc (k + 8) 1 + adc (k + 12) 1) cal.factorY cal.offsetY cal.maxY) := by
  obtain ⟨r1, r2, _⟩ := C306_range adc h s k first
  rw [(C306_raw adc h s k first).1] at r1 r2
  simp only at r1 r2
  have key : ∀ (raw : Nat) (f o : Int) (m : Nat), raw ≤ 12285 → 0 ≤ f → f ≤ 174803 → 0 ≤ o → o < 2 ^ 15 → scale raw f o m = some (position raw f o m) := by
    intro raw f o m h1 h2 h3 h4 h5
    have a : (0 : Int) ≤ raw * f := Int.mul_nonneg (by omega) h2
    have b : (raw : Int) * f ≤ 12285 * 174803 := Int.mul_le_mul (by omega) h3 h2 (by omega)
    refine C307_position_partial raw f o m (by omega) (by omega) h5 ?_
    rw [Int.tdiv_eq_ediv_of_nonneg a]
    omega
  unfold getTouchPosition
  simp only [(C306_raw adc h s k first).1]
  rw [key _ _ _ _ r1 hx.1 hx.2 ox.1 ox.2, key _ _ _ _ r2 hy.1 hy.2 oy.1 oy.2]

example : getTouchPosition { factorX := 26000, factorY := 34000, offsetX := 3, offsetY := 5 } (fun _ c => 400 * c) {} 0 0 = some (159, 45) := by decide

/-- **C307**, false in general: a touch left of the display (or above it) is reported at the opposite edge.  For every display of up to 30620
pixels and every negative result the position is the maximum instead of 0. -/
theorem C307_negative_counterexample (raw : Nat) (factor offset : Int) (limit : Nat) (h1 : -2 ^ 31 ≤ raw * factor) (h2 : raw * factor < 2 ^ 31)
    (ho : -2 ^ 15 ≤ offset) (hl : limit ≤ 30620) (h3 : (raw * factor).tdiv 1000000 + offset < 0) :
    scale raw factor offset limit = some limit ∧ position raw factor offset limit = 0 := by
  unfold scale position
  generalize hp : (raw : Int) * factor = p at *
  rw [if_neg (by omega)]
  have hd : -2148 ≤ p.tdiv 1000000 := by
    rcases Int.lt_or_le p 0 with q | q
    · rw [show p = -(-p) by omega, Int.neg_tdiv, Int.tdiv_eq_ediv_of_nonneg (by omega)]
      omega
    · rw [Int.tdiv_eq_ediv_of_nonneg q]
      omega
  constructor
  · congr 1
    omega
  · omega

/-- **C307**, false in general: with the default factor 1 every raw value from 2148 on (of up to 12285) overflows. -/
theorem C307_default_counterexample (raw : Nat) (offset : Int) (limit : Nat) (h : 2148 ≤ raw) : scale raw 1000000 offset limit = none := by
  unfold scale
  rw [if_pos (by omega)]

example : scale 6000 26000 (-20) 240 = some 136 ∧ position 6000 26000 (-20) 240 = 136 := by decide
example : scale 500 26000 (-20) 240 = some 240 ∧ position 500 26000 (-20) 240 = 0 := by decide

/-! ## ADS7843 (C308) -/

/-- **C308** (conversion): `readData` returns the measurement of the input, whatever was pending. -/
theorem C308_read_data (adc : Nat → Nat → Nat) (h : ∀ k c, adc k c < 4096) (s : Converter) (k : Nat) :
    (readData adc s k 0x90).1 = adc k 1 ∧ (readData adc s k 0xd0).1 = adc k 5 := by
  have a := h k 1
  have b := h k 5
  constructor <;> simp [readData, Converter.transfer, Converter.byte] <;> omega

/-- The mean values of the three groups of three samples -/
def group (b : Nat → Nat) (i : Nat) : Nat := (b (3 * i) + b (3 * i + 1) + b (3 * i + 2)) / 3

/-- **C308** (stable): there is a value exactly if two of the groups differ by at most two. -/
theorem C308_stable (b : Nat → Nat) : (getAverage b).isSome = true ↔ ∃ i j, i < j ∧ j < 3 ∧ group b i ≤ group b j + 2 ∧ group b j ≤ group b i + 2 := by
  have hd : ∀ x y, dist x y > threshold ↔ ¬ (x ≤ y + 2 ∧ y ≤ x + 2) := by
    intro x y
    unfold dist threshold
    split <;> omega
  have g0 : group b 0 = (b 0 + b 1 + b 2) / 3 := rfl
  have g1 : group b 1 = (b 3 + b 4 + b 5) / 3 := rfl
  have g2 : group b 2 = (b 6 + b 7 + b 8) / 3 := rfl
  unfold getAverage
  simp only [← g0, ← g1, ← g2]
  by_cases hc : dist (group b 0) (group b 1) > threshold ∧ dist (group b 1) (group b 2) > threshold ∧ dist (group b 2) (group b 0) > threshold
  · rw [if_pos hc]
    simp only [hd] at hc
    simp only [Option.isSome_none, Bool.false_eq_true, false_iff]
    rintro ⟨i, j, h1, h2, h3⟩
    have : (i = 0 ∧ j = 1) ∨ (i = 0 ∧ j = 2) ∨ (i = 1 ∧ j = 2) := by omega
    rcases this with ⟨rfl, rfl⟩ | ⟨rfl, rfl⟩ | ⟨rfl, rfl⟩ <;> omega
  · rw [if_neg hc]
    constructor
    · intro _
      simp only [hd] at hc
      by_cases q : group b 0 ≤ group b 1 + 2 ∧ group b 1 ≤ group b 0 + 2
      · exact ⟨0, 1, by omega, by omega, q⟩
      · by_cases q2 : group b 1 ≤ group b 2 + 2 ∧ group b 2 ≤ group b 1 + 2
        · exact ⟨1, 2, by omega, by omega, q2⟩
        · exact ⟨0, 2, by omega, by omega, by omega⟩
    · intro _
      split <;> split <;> rfl

/-- **C308** (value): the value is the mean of two groups that are as close as any two are. -/
theorem C308_closest (b : Nat → Nat) (v : Nat) (h : getAverage b = some v) :
    ∃ i j, i < j ∧ j < 3 ∧ v = (group b i + group b j) / 2 ∧
      ∀ i' j', i' < j' → j' < 3 → dist (group b i) (group b j) ≤ dist (group b i') (group b j') := by
  have sym : ∀ x y, dist x y = dist y x := by
    intro x y
    unfold dist
    split <;> split <;> omega
  have g0 : group b 0 = (b 0 + b 1 + b 2) / 3 := rfl
  have g1 : group b 1 = (b 3 + b 4 + b 5) / 3 := rfl
  have g2 : group b 2 = (b 6 + b 7 + b 8) / 3 := rfl
  unfold getAverage at h
  simp only [← g0, ← g1, ← g2] at h
  rw [sym (group b 2)] at h
  have cases3 : ∀ (P : Nat → Nat → Prop), P 0 1 → P 0 2 → P 1 2 → ∀ i' j', i' < j' → j' < 3 → P i' j' := by
    intro P p q r i' j' h1 h2
    have : (i' = 0 ∧ j' = 1) ∨ (i' = 0 ∧ j' = 2) ∨ (i' = 1 ∧ j' = 2) := by omega
    rcases this with ⟨rfl, rfl⟩ | ⟨rfl, rfl⟩ | ⟨rfl, rfl⟩ <;> assumption
  split at h
  · cases h
  · split at h
    · split at h <;> simp only [Option.some.injEq] at h
      · exact ⟨0, 2, by omega, by omega, h.symm, cases3 _ (by omega) (Nat.le_refl _) (by omega)⟩
      · exact ⟨0, 1, by omega, by omega, h.symm, cases3 _ (Nat.le_refl _) (by omega) (by omega)⟩
    · split at h <;> simp only [Option.some.injEq] at h
      · exact ⟨0, 2, by omega, by omega, h.symm, cases3 _ (by omega) (Nat.le_refl _) (by omega)⟩
      · exact ⟨1, 2, by omega, by omega, h.symm, cases3 _ (by omega) (by omega) (Nat.le_refl _)⟩

/-- **C308** (disturbances): if two of the three groups are within `e` of the true value, the result is within `2 e` of it, whatever the third
group is. -/
theorem C308_robust (b : Nat → Nat) (v t e i j : Nat) (h : getAverage b = some v) (hij : i < j) (hj : j < 3)
    (hi1 : group b i ≤ t + e) (hi2 : t ≤ group b i + e) (hj1 : group b j ≤ t + e) (hj2 : t ≤ group b j + e) : v ≤ t + 2 * e ∧ t ≤ v + 2 * e := by
  obtain ⟨i', j', h1, h2, h3, h4⟩ := C308_closest b v h
  have h5 := h4 i j hij hj
  have h6 : dist (group b i) (group b j) ≤ 2 * e := by
    unfold dist
    split <;> omega
  have h7 : group b i' ≤ group b j' + 2 * e ∧ group b j' ≤ group b i' + 2 * e := by
    have : dist (group b i') (group b j') ≤ 2 * e := Nat.le_trans h5 h6
    unfold dist at this
    split at this <;> omega
  have hc : (i' = i ∨ i' = j) ∨ (j' = i ∨ j' = j) := by omega
  rcases hc with (rfl | rfl) | (rfl | rfl) <;> omega

theorem collect_nine (sample : Nat → Nat × Nat) (pen : Nat → Bool) : ∀ (n count : Nat), n + count = 9 → 0 < n →
    (collect sample pen n count = 9 ↔ ∀ i, count ≤ i → i < 8 → pen i = false) := by
  intro n
  induction n with
  | zero => intro _ _ h; omega
  | succ n ih =>
    intro count h _
    rw [collect]
    by_cases hc : count + 1 < 9
    · cases hp : pen count with
      | true =>
        simp only [Bool.not_true, Bool.false_and, Bool.false_eq_true, if_false]
        constructor
        · intro q; omega
        · intro q
          have := q count (Nat.le_refl _) (by omega)
          rw [hp] at this
          cases this
      | false =>
        simp only [Bool.not_false, Bool.true_and, decide_eq_true_eq, if_pos hc]
        rw [ih (count + 1) (by omega) (by omega)]
        constructor
        · intro q i h1 h2
          rcases Nat.eq_or_lt_of_le h1 with rfl | h3
          · exact hp
          · exact q i h3 h2
        · intro q i h1 h2
          exact q i (by omega) h2
    · have : count = 8 := by omega
      subst this
      simp only [Nat.reduceAdd, Nat.lt_irrefl, decide_false, Bool.and_false, Bool.false_eq_true, if_false, true_iff]
      intro i h1 h2
      omega

/-- **C308** (pressed): `read` returns true exactly if the pen was down after each of the first eight samples and both coordinates are stable; the point is
then made of the two values. -/
theorem C308_read (sample : Nat → Nat × Nat) (pen : Nat → Bool) (p : Nat × Nat) :
    readPoint sample pen = some p ↔ (∀ i, i < 8 → pen i = false) ∧ getAverage (fun i => (sample i).1) = some p.1 ∧ getAverage (fun i => (sample i).2) = some p.2 := by
  have hc := collect_nine sample pen 9 0 (by omega) (by omega)
  unfold readPoint
  by_cases h9 : collect sample pen 9 0 = 9
  · rw [if_pos h9]
    have hp := hc.1 h9
    have hp' : ∀ i, i < 8 → pen i = false := fun i hi => hp i (Nat.zero_le _) hi
    obtain ⟨px, py⟩ := p
    cases hx : getAverage fun i => (sample i).1 <;> cases hy : getAverage fun i => (sample i).2 <;> simp
    exact fun _ _ => hp'
  · rw [if_neg h9]
    constructor
    · intro q; cases q
    · intro q
      exact absurd (hc.2 fun i _ hi => q.1 i hi) h9

example : getAverage (fun i => [100, 101, 102, 4000, 4000, 4000, 100, 102, 104].getD i 0) = some 101 := by decide
example : getAverage (fun i => [100, 100, 100, 200, 200, 200, 300, 300, 300].getD i 0) = none := by decide

/-! ## FT6x06 (C309) -/

/-- **C309**: after a successful `readTouches`, the touches are those of the registers of the chip: event, x, id and y of touch `i` from the registers
3 + 6 i on; gesture and number from registers 1 and 2. -/
theorem C309_touches (regs : Nat → Byte) (data : List Byte) (i : Nat) (hi : i < 2) :
    (readTouches regs true data).1 = true ∧
    getTouch (readTouches regs true data).2 i = some ⟨regs (3 + 6 * i) &&& 0xc0, (regs (3 + 6 * i)).toNat % 16 * 256 + (regs (4 + 6 * i)).toNat,
      (regs (5 + 6 * i)).toNat / 16, (regs (5 + 6 * i)).toNat % 16 * 256 + (regs (6 + 6 * i)).toNat⟩ ∧
    getGesture (readTouches regs true data).2 = regs 1 ∧ getPoints (readTouches regs true data).2 = (regs 2).toNat := by
  have hn : ∀ a b : Byte, ((a &&& 0x0f) ++ b).toNat = a.toNat % 16 * 256 + b.toNat := by
    intro a b
    rw [BitVec.toNat_append, BitVec.toNat_and]
    have : a.toNat &&& (0x0f : Byte).toNat = a.toNat % 16 := Nat.and_two_pow_sub_one_eq_mod a.toNat 4
    rw [this, ← Nat.shiftLeft_add_eq_or_of_lt b.isLt, Nat.shiftLeft_eq]
  have hs : ∀ a : Byte, (a >>> 4).toNat = a.toNat / 16 := by
    intro a
    rw [BitVec.toNat_ushiftRight, Nat.shiftRight_eq_div_pow]
  refine ⟨rfl, ?_, rfl, rfl⟩
  interval_cases i
  · simp only [getTouch, hn, hs]
    rfl
  · simp only [getTouch, hn, hs]
    rfl

/-- **C309** (others): there are two touches only, and a transaction that fails leaves the data as they were. -/
theorem C309_none (regs : Nat → Byte) (data : List Byte) (i : Nat) (hi : 2 ≤ i) : getTouch data i = none ∧ readTouches regs false data = (false, data) :=
  ⟨by unfold getTouch; rw [if_pos hi], rfl⟩

example : getTouch (readTouches (fun r => BitVec.ofNat 8 (r * 17)) true []).2 1 = some ⟨0x80, 0x9aa, 11, 0xbcc⟩ := by decide

end Props.Touch
