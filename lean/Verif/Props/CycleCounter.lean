import Verif.Model.CycleCounter
import Mathlib.Tactic.Ring
import Mathlib.Algebra.Order.Ring.Nat

set_option autoImplicit false

namespace Props.CycleCounter
open Model.CycleCounter

theorem sub_lt (w a b : Nat) : sub w a b < 2 ^ w := Nat.mod_lt _ (Nat.two_pow_pos w)

theorem sub_of_le (w a b : Nat) (ha : a < 2 ^ w) (h : b ≤ a) : sub w a b = a - b := by
  unfold sub
  rw [Nat.mod_eq_of_lt (show b < 2 ^ w by omega)]
  rw [show a + 2 ^ w - b = (a - b) + 2 ^ w by omega, Nat.add_mod_right, Nat.mod_eq_of_lt (by omega)]

theorem sub_of_lt (w a b : Nat) (hb : b < 2 ^ w) (h : a < b) : sub w a b = a + 2 ^ w - b := by
  unfold sub
  rw [Nat.mod_eq_of_lt hb, Nat.mod_eq_of_lt (by omega)]

theorem diff_counter (w t0 d : Nat) : sub w (counter w (t0 + d)) (counter w t0) = d % 2 ^ w := by
  unfold sub counter
  have hp := Nat.two_pow_pos w
  generalize 2 ^ w = M at *
  rw [Nat.mod_mod, Nat.add_mod]
  have h0 : t0 % M < M := Nat.mod_lt _ hp
  have h1 : d % M < M := Nat.mod_lt _ hp
  generalize t0 % M = x at *
  generalize d % M = y at *
  rcases Nat.lt_or_ge (x + y) M with c | c
  · rw [Nat.mod_eq_of_lt c, show x + y + M - x = y + M by omega, Nat.add_mod_right, Nat.mod_eq_of_lt h1]
  · rw [Nat.mod_eq_sub_mod c, Nat.mod_eq_of_lt (show x + y - M < M by omega), show x + y - M + M - x = y by omega, Nat.mod_eq_of_lt h1]

/-- C328: with a counter that counts up, for all phases of the counter and for all times of less than a
period: exactly if the overhead is not more than the time, `cycles()` is the time without the
overhead. -/
theorem C328_up_partial (w overhead t0 d : Nat) (hw : 8 ≤ w) (ho : overhead < 256) (hd : d < 2 ^ w) :
    (overhead ≤ d ↔ cycles w overhead t0 (t0 + d) + overhead = d) ∧
    (overhead ≤ d → cycles w overhead t0 (t0 + d) = d - overhead) := by
  have h8 : 2 ^ 8 ≤ 2 ^ w := Nat.pow_le_pow_right (by omega) hw
  have e : cycles w overhead t0 (t0 + d) = sub w d overhead := by
    unfold cycles; rw [diff_counter, Nat.mod_eq_of_lt hd]
  rw [e]
  rcases Nat.lt_or_ge d overhead with c | c
  · rw [sub_of_lt w d overhead (by omega) c]; omega
  · rw [sub_of_le w d overhead hd c]; omega

/-- Case: the counter overflows while the time is measured. -/
example : cycles 32 4 (2 ^ 32 - 100) (2 ^ 32 - 100 + 1004) = 1000 := by decide +kernel
example : cycles 16 4 65000 66004 = 1000 := by decide +kernel

/-- C328 (refuted): a time shorter than the overhead (3 cycles between the two samples) is reported as
more than four thousand million cycles. -/
theorem C328_short_counterexample : cycles 32 4 0 3 = 2 ^ 32 - 1 := by decide +kernel

theorem sysTick_diff (load t0 d : Nat) (hd : d ≤ load) :
    (t0 % (load + 1) + d ≤ load ∧ sysTick load (t0 + d) + d = sysTick load t0) ∨
    (load < t0 % (load + 1) + d ∧ sysTick load (t0 + d) + d = sysTick load t0 + load + 1) := by
  unfold sysTick
  have h0 : t0 % (load + 1) < load + 1 := Nat.mod_lt _ (by omega)
  rw [Nat.add_mod t0 d, Nat.mod_eq_of_lt (show d < load + 1 by omega)]
  generalize t0 % (load + 1) = x at *
  rcases Nat.lt_or_ge (x + d) (load + 1) with c | c
  · left; rw [Nat.mod_eq_of_lt c]; omega
  · right; rw [Nat.mod_eq_sub_mod c, Nat.mod_eq_of_lt (by omega)]; omega

/-- C329: on a Cortex-M0, for all reload values of the 24 bit counter, all phases, all times of less
than a period and all dividers for which the time fits: without an underflow `cycles()` is the time
without the overhead, with an underflow it is exactly one cycle (of the counter) less; a second call of
`cycles()` gives the same. -/
theorem C329_down_partial (load div overhead t0 d : Nat) (hl : load < 2 ^ 24) (hd : d ≤ load) (hdiv : div ≤ 256)
    (hpos : 1 ≤ div) (ho : overhead + div ≤ d * div) :
    (t0 % (load + 1) + d ≤ load → (cyclesM0 load div overhead (sample load t0 (t0 + d))).1 = d * div - overhead) ∧
    (load < t0 % (load + 1) + d →
      (cyclesM0 load div overhead (sample load t0 (t0 + d))).1 = (d - 1) * div - overhead) ∧
    (cyclesM0 load div overhead (cyclesM0 load div overhead (sample load t0 (t0 + d))).2).1 =
      (cyclesM0 load div overhead (sample load t0 (t0 + d))).1 := by
  have hd1 : 1 ≤ d := by
    rcases Nat.eq_zero_or_pos d with c | c
    · rw [c, Nat.zero_mul] at ho; omega
    · exact c
  have hm : d * div ≤ 2 ^ 24 * 256 - 256 := by
    have : d * div ≤ (2 ^ 24 - 1) * 256 := Nat.mul_le_mul (by omega) hdiv
    omega
  have hm1 : (d - 1) * div + div = d * div := by
    rw [← Nat.succ_mul]; congr 1; omega
  have b0 : sysTick load t0 ≤ load := by unfold sysTick; omega
  have b1 : sysTick load (t0 + d) ≤ load := by unfold sysTick; omega
  unfold cyclesM0 sample underflow
  rcases sysTick_diff load t0 d hd with ⟨c, e⟩ | ⟨c, e⟩
  · have n : ¬ sysTick load t0 < sysTick load (t0 + d) := by omega
    simp only [n, if_false]
    have s1 : sub 32 (sysTick load t0) (sysTick load (t0 + d)) = d := by
      rw [sub_of_le 32 _ _ (by omega) (by omega)]; omega
    refine ⟨fun _ => ?_, fun g => absurd g (by omega), trivial⟩
    rw [s1, Nat.mod_eq_of_lt (by omega), sub_of_le 32 _ _ (by omega) (by omega)]
  · have n : sysTick load t0 < sysTick load (t0 + d) := by omega
    have n' : ¬ sysTick load t0 + load < sysTick load (t0 + d) := by omega
    simp only [n, n', if_true, if_false]
    have s1 : sub 32 (sysTick load t0 + load) (sysTick load (t0 + d)) = d - 1 := by
      rw [sub_of_le 32 _ _ (by omega) (by omega)]; omega
    refine ⟨fun g => absurd g (by omega), fun _ => ?_, trivial⟩
    rw [s1, Nat.mod_eq_of_lt (by omega), sub_of_le 32 _ _ (by omega) (by omega)]

/-- Case: the hypotheses hold with the reload value of `initialize()`. -/
example : (cyclesM0 loadInit 1 4 (sample loadInit 100 1104)).1 = 1000 := by decide +kernel

/-- C329 (refuted): the same 1004 cycles, started 100 cycles before the underflow, are one less:
`LOAD` is added instead of the period. -/
theorem C329_underflow_counterexample :
    loadInit = 2 ^ 24 - 1 ∧ (cyclesM0 loadInit 1 4 (sample loadInit (2 ^ 24 - 100) (2 ^ 24 - 100 + 1004))).1 = 999 ∧
    1004 - 4 = 1000 := by decide +kernel

/-- C330: for all numbers of cycles of the 32 bit counter and all clocks: the product does not overflow
and the result is the time in the unit, rounded down, if that is less than 2³²; for milliseconds that is
so for all clocks of at least 1 kHz, for microseconds for all of at least 1 MHz. -/
theorem C330_units_partial (unit clock c : Nat) (hu : unit ≤ 1000000000) (hc : c < 2 ^ 32) (hk : 0 < clock) :
    (c * unit < 2 ^ 32 * clock →
      inUnit unit clock c * clock ≤ c * unit ∧ c * unit < (inUnit unit clock c + 1) * clock) ∧
    (unit ≤ clock → c * unit < 2 ^ 32 * clock) := by
  have h64 : c * unit < 2 ^ 64 := by
    have : c * unit ≤ (2 ^ 32 - 1) * 1000000000 := Nat.mul_le_mul (by omega) hu
    omega
  refine ⟨fun h => ?_, fun h => ?_⟩
  · have q : c * unit / clock < 2 ^ 32 := by rw [Nat.div_lt_iff_lt_mul hk]; exact h
    unfold inUnit
    rw [Nat.mod_eq_of_lt h64, Nat.mod_eq_of_lt q]
    exact ⟨Nat.div_mul_le_self _ _, by rw [Nat.mul_comm (_ + 1)]; exact Nat.lt_mul_div_succ _ hk⟩
  · calc c * unit ≤ c * clock := Nat.mul_le_mul_left _ h
      _ < 2 ^ 32 * clock := Nat.mul_lt_mul_of_pos_right hc hk

example : inUnit 1000000 168000000 840000000 = 5000000 := by decide +kernel

/-- C330 (refuted): five seconds at 168 MHz, which the counter can measure, are 705032704 ns. -/
theorem C330_nanoseconds_counterexample :
    inUnit 1000000000 168000000 840000000 = 705032704 ∧ 840000000 < 2 ^ 32 ∧
    840000000 * 1000000000 / 168000000 = 5000000000 := by decide +kernel

end Props.CycleCounter
