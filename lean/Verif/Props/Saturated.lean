import Verif.Model.Saturated
import Mathlib.Tactic.Linarith
set_option autoImplicit false
set_option linter.unusedTactic false
/- Properties C24, C25, C47, C48. -/
namespace Props
open Modm.Saturated

/-- specification: nearest representable value -/
def clampTo (lo hi v : Int) : Int := if v < lo then lo else if hi < v then hi else v

theorem pow_split (n : Nat) (h : 0 < n) : (2 : Int) ^ n = 2 * 2 ^ (n - 1) := by
  obtain ⟨k, rfl⟩ : ∃ k, n = k + 1 := ⟨n - 1, by omega⟩
  rw [Nat.add_sub_cancel, Int.pow_succ]; omega

theorem pow_pos2 (n : Nat) : (0 : Int) < 2 ^ n := Int.pow_pos (by decide)

theorem min_le_max (t : Ty) (h : 0 < t.bits) : t.min ≤ 0 ∧ 0 ≤ t.max ∧ t.min < t.max := by
  have h1 := pow_pos2 (t.bits - 1)
  have h2 := pow_split t.bits h
  unfold Ty.min Ty.max
  split <;> omega

theorem wrap_fits (t : Ty) (h : 0 < t.bits) (v : Int) (hv : t.fits v) : t.wrap v = v := by
  have h1 := pow_pos2 (t.bits - 1)
  have h2 := pow_split t.bits h
  unfold Ty.fits Ty.min Ty.max at hv
  unfold Ty.wrap
  split
  · rename_i hs
    simp only [hs, if_true] at hv
    apply Int.bmod_eq_of_le
    · push_cast; omega
    · push_cast; omega
  · rename_i hs
    simp only [hs] at hv
    apply Int.emod_eq_of_lt <;> simp at hv <;> omega

theorem builtin_eq (t : Ty) (h : 0 < t.bits) (v : Int) (lim : Int) :
    (if (builtin t v).2 then lim else (builtin t v).1) = if t.fits v then v else lim := by
  unfold builtin
  by_cases hf : t.fits v
  · simp [hf, wrap_fits t h v hf]
  · simp [hf]

/-- negation is defined unless the operand is the most negative value of a type at least as wide as `int` -/
theorem neg_ok (u : Ty) (b : Int) (hs : u.signed = true) (h : u.bits < 32 ∨ b ≠ u.min) : neg u b = some (-b) := by
  unfold neg
  by_cases hb : u.bits < 32
  · simp [hb]
  · have : b ≠ u.min := by rcases h with h | h; exact absurd h hb; exact h
    simp [hb, hs, this]

/-- C24: addition gives the exact sum clamped to the range of `T`, for all types and operands; the only excluded
case is adding the most negative value of a signed type as wide as `int` or wider, where the code has undefined
behaviour (`C24_min_operand_counterexample`). -/
theorem C24_add_clamps_partial (t u : Ty) (ht : 0 < t.bits) (a b : Int) (ha : t.fits a) (hb : u.fits b)
    (hmin : u.signed = true → u.bits < 32 ∨ b ≠ u.min) : add t u a b = some (clampTo t.min t.max (a + b)) := by
  obtain ⟨ha1, ha2⟩ := ha
  have hm := min_le_max t ht
  unfold add addS addU clampTo
  by_cases hs : u.signed = true
  · rw [if_pos hs]
    split
    · rw [neg_ok u b hs (hmin hs)]
      simp only [Option.bind_eq_bind, Option.bind_some]
      have := builtin_eq t ht (a - -b) t.min
      simp only [this, Ty.fits]
      congr 1
      rw [show a - -b = a + b by omega]
      repeat' split
      all_goals omega
    · have := builtin_eq t ht (a + b) t.max
      simp only [this, Ty.fits]
      congr 1
      repeat' split
      all_goals omega
  · rw [if_neg hs]
    have hb0 : 0 ≤ b := by
      have := hb.1; unfold Ty.min at this; simp [hs] at this; exact this
    have := builtin_eq t ht (a + b) t.max
    simp only [this, Ty.fits]
    congr 1
    repeat' split
    all_goals omega

/-- C24: subtraction gives the exact difference clamped to the range of `T`. -/
theorem C24_sub_clamps_partial (t u : Ty) (ht : 0 < t.bits) (a b : Int) (ha : t.fits a) (hb : u.fits b)
    (hmin : u.signed = true → u.bits < 32 ∨ b ≠ u.min) : sub t u a b = some (clampTo t.min t.max (a - b)) := by
  obtain ⟨ha1, ha2⟩ := ha
  have hm := min_le_max t ht
  unfold sub subS subU clampTo
  by_cases hs : u.signed = true
  · rw [if_pos hs]
    split
    · rw [neg_ok u b hs (hmin hs)]
      simp only [Option.bind_eq_bind, Option.bind_some]
      have := builtin_eq t ht (a + -b) t.max
      simp only [this, Ty.fits]
      congr 1
      rw [show a + -b = a - b by omega]
      repeat' split
      all_goals omega
    · have := builtin_eq t ht (a - b) t.min
      simp only [this, Ty.fits]
      congr 1
      repeat' split
      all_goals omega
  · rw [if_neg hs]
    have hb0 : 0 ≤ b := by
      have := hb.1; unfold Ty.min at this; simp [hs] at this; exact this
    have := builtin_eq t ht (a - b) t.min
    simp only [this, Ty.fits]
    congr 1
    repeat' split
    all_goals omega

/-- the excluded operand really is a problem: -2^31 as an `int32_t` operand -/
theorem C24_min_operand_counterexample :
    add ⟨true, 32⟩ ⟨true, 32⟩ 5 (-2147483648) = none ∧ sub ⟨true, 32⟩ ⟨true, 32⟩ 5 (-2147483648) = none := by decide

/-- C24: increment and decrement clamp. -/
theorem C24_inc_dec (t : Ty) (a : Int) (ha : t.fits a) :
    inc t a = clampTo t.min t.max (a + 1) ∧ dec t a = clampTo t.min t.max (a - 1) := by
  obtain ⟨h1, h2⟩ := ha
  unfold inc dec clampTo
  constructor <;> repeat' split
  all_goals omega

example : add ⟨false, 8⟩ ⟨true, 8⟩ 3 (-128) = some 0 ∧ add ⟨true, 8⟩ ⟨false, 8⟩ (-128) 255 = some 127 ∧
    add ⟨true, 8⟩ ⟨false, 16⟩ 0 300 = some 127 ∧ sub ⟨true, 8⟩ ⟨true, 8⟩ (-100) 100 = some (-128) := by decide

/-- C25 (proved part 1): with unsigned operands the product is exact or clamped to the maximum. -/
theorem C25_mul_unsigned (t u : Ty) (ht : 0 < t.bits) (hs : t.signed = false) (hu : u.signed = false) (a b : Int)
    (ha : t.fits a) (hb : u.fits b) : mulAssign t u a b = some (clampTo t.min t.max (a * b)) := by
  have hm := min_le_max t ht
  have ha0 : 0 ≤ a := by have := ha.1; unfold Ty.min at this; simpa [hs] using this
  have hb0 : 0 ≤ b := by have := hb.1; unfold Ty.min at this; simpa [hu] using this
  have hab : 0 ≤ a * b := Int.mul_nonneg ha0 hb0
  unfold mulAssign mulU clampTo
  have := builtin_eq t ht (a * b) t.max
  simp only [this, Ty.fits, hu]
  simp only [Bool.false_eq_true, if_false]
  congr 1
  repeat' split
  all_goals omega

/-- C25 (proved part 2, signed): exact whenever the product and its negation are representable; clamped to the
maximum when the right operand is not negative and the product is too large. Missing: products below the
minimum, and negative right operands with a product outside [-max, max], where the result is wrong
(`C25_mul_counterexamples`). -/
theorem C25_mul_signed_partial (t u : Ty) (ht : 0 < t.bits) (hs : t.signed = true) (hu : u.signed = true)
    (a b : Int) (hmin : u.bits < 32 ∨ b ≠ u.min) :
    (-t.max ≤ a * b → a * b ≤ t.max → mulAssign t u a b = some (a * b)) ∧
    (0 ≤ b → t.min ≤ a * b → mulAssign t u a b = some (clampTo t.min t.max (a * b))) := by
  have hmx := min_le_max t ht
  have hmm : t.min = -t.max - 1 := by unfold Ty.min Ty.max; simp [hs]
  constructor
  · intro h1 h2
    unfold mulAssign mulS
    rw [if_pos hu]
    split
    · rw [neg_ok u b hu hmin]
      simp only [Option.bind_eq_bind, Option.bind_some]
      have := builtin_eq t ht (a * -b) t.max
      have hf : t.fits (a * -b) := by rw [Int.mul_neg]; exact ⟨by omega, by omega⟩
      simp only [this, hf, if_true]
      rw [neg_ok t _ hs (Or.inr (by rw [Int.mul_neg]; omega))]
      simp only [Option.bind_some]
      have e : -(a * -b) = a * b := by rw [Int.mul_neg, Int.neg_neg]
      rw [e, wrap_fits t ht _ ⟨by omega, h2⟩]
    · have := builtin_eq t ht (a * b) t.max
      have hf : t.fits (a * b) := ⟨by omega, h2⟩
      simp only [this, hf, if_true]
  · intro hb h1
    unfold mulAssign mulS
    rw [if_pos hu, if_neg (by omega)]
    have := builtin_eq t ht (a * b) t.max
    simp only [this, Ty.fits, clampTo]
    congr 1
    repeat' split
    all_goals omega

/-- C25 is false: `int8_t` (-10)*100 gives +127, 10*(-100) gives -127, (-128)*(-1) gives -128; `uint8_t` 5*(-1)
gives 251. -/
theorem C25_mul_counterexamples :
    mulAssign ⟨true, 8⟩ ⟨true, 8⟩ (-10) 100 = some 127 ∧ clampTo (-128) 127 (-10 * 100) = -128 ∧
    mulAssign ⟨true, 8⟩ ⟨true, 8⟩ 10 (-100) = some (-127) ∧
    mulAssign ⟨true, 8⟩ ⟨true, 8⟩ (-128) (-1) = some (-128) ∧
    mulAssign ⟨false, 8⟩ ⟨true, 8⟩ 5 (-1) = some 251 ∧ clampTo 0 255 (5 * -1) = 0 := by decide

/-- C25: the sign error is systematic: every product below the minimum with a non-negative right operand is
reported as the maximum. -/
theorem C25_mul_underflow_wrong (t u : Ty) (ht : 0 < t.bits) (hu : u.signed = true) (a b : Int) (hb : 0 ≤ b)
    (h : a * b < t.min) : mulAssign t u a b = some t.max ∧ t.max ≠ clampTo t.min t.max (a * b) := by
  have hm := min_le_max t ht
  constructor
  · unfold mulAssign mulS
    rw [if_pos hu, if_neg (by omega)]
    have := builtin_eq t ht (a * b) t.max
    have hf : ¬ t.fits (a * b) := fun hf => by have := hf.1; omega
    simp only [this, hf, if_false]
  · unfold clampTo; rw [if_pos h]; omega

example : mulAssign ⟨true, 8⟩ ⟨true, 8⟩ (-12) (-10) = some 120 ∧ mulAssign ⟨true, 8⟩ ⟨true, 8⟩ 12 11 = some 127 ∧
    mulAssign ⟨false, 8⟩ ⟨false, 16⟩ 2 200 = some 255 := by decide

/-- the integer types a program can name -/
def Ty.std (t : Ty) : Prop := t.bits = 8 ∨ t.bits = 16 ∨ t.bits = 32 ∨ t.bits = 64

theorem fitsAny_table (st su : Bool) (bt bu : Nat) (ht : Ty.std ⟨st, bt⟩) (hu : Ty.std ⟨su, bu⟩) (c : Ty)
    (hc : fitsAny ⟨st, bt⟩ ⟨su, bu⟩ = some c) :
    0 < c.bits ∧ c.min ≤ Ty.min ⟨st, bt⟩ ∧ c.min ≤ Ty.min ⟨su, bu⟩ ∧ Ty.max ⟨st, bt⟩ ≤ c.max ∧
      Ty.max ⟨su, bu⟩ ≤ c.max := by
  simp only [Ty.std] at ht hu
  rcases ht with rfl | rfl | rfl | rfl <;> rcases hu with rfl | rfl | rfl | rfl <;> cases st <;> cases su <;>
    (first | (simp [fitsAny, leastBits, Ty.digits] at hc; done) | skip) <;>
    (revert hc; simp [fitsAny, leastBits, Ty.digits]; rintro rfl; simp [Ty.min, Ty.max])

/-- C47: `fits_any` yields a type that represents every value of both arguments whenever it compiles. -/
theorem C47_fitsAny_holds_both (t u c : Ty) (ht : Ty.std t) (hu : Ty.std u) (hc : fitsAny t u = some c) (v : Int)
    (hv : t.fits v ∨ u.fits v) : c.fits v := by
  obtain ⟨st, bt⟩ := t; obtain ⟨su, bu⟩ := u
  obtain ⟨_, h1, h2, h3, h4⟩ := fitsAny_table st su bt bu ht hu c hc
  unfold Ty.fits at *
  rcases hv with hv | hv <;> exact ⟨by omega, by omega⟩

/-- C47: it compiles exactly when neither type is `uint64_t` (even two `uint64_t` do not compile). -/
theorem C47_fitsAny_compiles (t u : Ty) (ht : Ty.std t) (hu : Ty.std u) :
    fitsAny t u = none ↔ t = ⟨false, 64⟩ ∨ u = ⟨false, 64⟩ := by
  obtain ⟨st, bt⟩ := t; obtain ⟨su, bu⟩ := u
  simp only [Ty.std] at ht hu
  rcases ht with rfl | rfl | rfl | rfl <;> rcases hu with rfl | rfl | rfl | rfl <;> cases st <;> cases su <;> decide

/-- C47: constructing or assigning a `Saturated<T>` from any integer type gives the nearest representable value. -/
theorem C47_convert_clamps (t u : Ty) (ht : Ty.std t) (hu : Ty.std u) (v : Int) (hv : u.fits v)
    (hc : fitsAny t u ≠ none) : convert t u v = some (clampTo t.min t.max v) := by
  obtain ⟨c, hc⟩ := Option.ne_none_iff_exists'.1 hc
  obtain ⟨st, bt⟩ := t; obtain ⟨su, bu⟩ := u
  obtain ⟨h0, h1, h2, h3, h4⟩ := fitsAny_table st su bt bu ht hu c hc
  have hbt : 0 < bt := by rcases ht with h | h | h | h <;> simp only at h <;> omega
  have hm := min_le_max ⟨st, bt⟩ hbt
  simp only [convert, hc, Option.bind_eq_bind, Option.bind_some]
  rw [wrap_fits c h0 v (C47_fitsAny_holds_both _ _ c ht hu hc v (Or.inr hv)),
    wrap_fits c h0 _ (⟨h1, by omega⟩), wrap_fits c h0 _ (⟨by omega, h3⟩)]
  rw [wrap_fits ⟨st, bt⟩ hbt]
  · rfl
  · unfold Ty.fits
    repeat' split
    all_goals omega

example : convert ⟨true, 8⟩ ⟨false, 32⟩ 4000000000 = some 127 ∧ convert ⟨false, 8⟩ ⟨true, 16⟩ (-5) = some 0 := by decide

/-- C48: negating an unsigned value is exact (in the wider signed type). -/
theorem C48_neg_unsigned (t : Ty) (ht : 0 < t.bits) (hs : t.signed = false) (a : Int) (ha : t.fits a) :
    negOpU t a = some (-a) := by
  have h0 : 0 ≤ a := by have := ha.1; unfold Ty.min at this; simpa [hs] using this
  have h1 : a ≤ 2 ^ t.bits - 1 := by have := ha.2; unfold Ty.max at this; simpa [hs] using this
  have hle : (2 : Int) ^ t.bits ≤ 2 ^ (2 * t.bits - 1) := by
    have : (2 : Nat) ^ t.bits ≤ 2 ^ (2 * t.bits - 1) := Nat.pow_le_pow_right (by decide) (by omega)
    exact_mod_cast this
  have hmin : (Ty.min ⟨true, 2 * t.bits⟩) = -2 ^ (2 * t.bits - 1) := by simp [Ty.min]
  have hmax : (Ty.max ⟨true, 2 * t.bits⟩) = 2 ^ (2 * t.bits - 1) - 1 := by simp [Ty.max]
  have hp := pow_pos2 (2 * t.bits - 1)
  unfold negOpU
  rw [neg_ok _ a rfl (Or.inr (by rw [hmin]; omega)), Option.map_some,
    wrap_fits ⟨true, 2 * t.bits⟩ (by simp only; omega) (-a) ⟨by rw [hmin]; omega, by rw [hmax]; omega⟩]

/-- C48 (signed): exact for every value but the minimum. Missing: the minimum (`C48_neg_min_wrong`). -/
theorem C48_neg_signed_partial (t : Ty) (ht : 0 < t.bits) (hs : t.signed = true) (a : Int) (ha : t.fits a)
    (hm : a ≠ t.min) : negOpS t a = some (clampTo t.min t.max (-a)) ∧
      absolute t a = some (clampTo t.min t.max (if a < 0 then -a else a)) := by
  have hmm : t.min = -t.max - 1 := by unfold Ty.min Ty.max; simp [hs]
  obtain ⟨h1, h2⟩ := ha
  have e : negOpS t a = some (-a) := by
    unfold negOpS
    rw [neg_ok t a hs (Or.inr hm), Option.map_some, wrap_fits t ht (-a) ⟨by omega, by omega⟩]
  have c : clampTo t.min t.max (-a) = -a := by unfold clampTo; repeat' split
                                               all_goals omega
  refine ⟨by rw [e, c], ?_⟩
  unfold absolute
  split
  · rw [c]; exact e
  · congr 1; unfold clampTo; repeat' split
    all_goals omega

/-- C48 is false at the minimum: for every signed type, negation and absolute value of the minimum are the minimum
again (8 and 16 bits) or undefined, never the maximum. -/
theorem C48_neg_min_wrong (t : Ty) (hs : t.signed = true) (hstd : Ty.std t) :
    negOpS t t.min ≠ some (clampTo t.min t.max (-t.min)) ∧ absolute t t.min ≠ some (clampTo t.min t.max (-t.min)) := by
  obtain ⟨s, b⟩ := t
  simp only at hs; subst hs
  rcases hstd with h | h | h | h <;> simp only at h <;> subst h <;> decide

example : negOpS ⟨true, 8⟩ (-127) = some 127 ∧ absolute ⟨true, 8⟩ (-127) = some 127 ∧ negOpS ⟨true, 8⟩ (-128) = some (-128) ∧
    negOpU ⟨false, 8⟩ 255 = some (-255) ∧ absolute ⟨true, 32⟩ (-2147483648) = none := by decide

end Props
