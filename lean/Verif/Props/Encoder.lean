import Verif.Spec.Encoder
import Mathlib.Tactic.IntervalCases
import Mathlib.Tactic.Ring
import Mathlib.Tactic.Linarith
import Mathlib.Tactic.Push

set_option autoImplicit false

/-! Properties C70 to C73: encoders. -/

namespace Props.Encoder

open Modm.Encoder Spec.Encoder

/-! ### C70 -/

theorem raw_signals (p : Int) : getRaw (signals p) = BitVec.ofInt 8 (p % 4) := by
  have h : p % 4 = 0 ∨ p % 4 = 1 ∨ p % 4 = 2 ∨ p % 4 = 3 := by omega
  rcases h with h | h | h | h <;> simp only [signals, h] <;> decide

/-- One sample of an encoder that moved by at most one step. -/
theorem update_signals {w : Nat} (p q : Int) (d : BitVec w) (h1 : -1 ≤ q - p) (h2 : q - p ≤ 1) :
    Input.update ⟨getRaw (signals p), d⟩ (signals q) =
      ⟨getRaw (signals q), d + BitVec.ofInt w (q - p)⟩ := by
  have hp : p % 4 = 0 ∨ p % 4 = 1 ∨ p % 4 = 2 ∨ p % 4 = 3 := by omega
  have hq : q = p ∨ q = p + 1 ∨ q = p - 1 := by omega
  rcases hq with rfl | rfl | rfl
  · simp [Input.update]
  · have e : p + 1 - p = (((2 : Nat) : Int) - 1) := by omega
    rw [Input.update]
    have hd : getRaw (signals p) - getRaw (signals (p + 1)) = 0xff ∨
        getRaw (signals p) - getRaw (signals (p + 1)) = 3 := by
      rw [raw_signals, raw_signals]
      rcases hp with h | h | h | h
      · rw [h, show (p + 1) % 4 = 1 by omega]; decide
      · rw [h, show (p + 1) % 4 = 2 by omega]; decide
      · rw [h, show (p + 1) % 4 = 3 by omega]; decide
      · rw [h, show (p + 1) % 4 = 0 by omega]; decide
    rcases hd with hd | hd <;> simp only [hd] <;> rw [if_pos (by decide), e] <;> rfl
  · have e : p - 1 - p = (((0 : Nat) : Int) - 1) := by omega
    rw [Input.update]
    have hd : getRaw (signals p) - getRaw (signals (p - 1)) = 1 ∨
        getRaw (signals p) - getRaw (signals (p - 1)) = 0xfd := by
      rw [raw_signals, raw_signals]
      rcases hp with h | h | h | h
      · rw [h, show (p - 1) % 4 = 3 by omega]; decide
      · rw [h, show (p - 1) % 4 = 0 by omega]; decide
      · rw [h, show (p - 1) % 4 = 1 by omega]; decide
      · rw [h, show (p - 1) % 4 = 2 by omega]; decide
    rcases hd with hd | hd <;> simp only [hd] <;> rw [if_pos (by decide), e] <;> rfl

theorem toInt_fits {w : Nat} (hw : 0 < w) (v : Int) (h1 : -2 ^ (w - 1) ≤ v) (h2 : v < 2 ^ (w - 1)) :
    (BitVec.ofInt w v).toInt = v := by
  rw [BitVec.toInt_ofInt]
  obtain ⟨n, rfl⟩ : ∃ n, w = n + 1 := ⟨w - 1, by omega⟩
  simp only [Nat.add_sub_cancel] at h1 h2
  have e : ((2 ^ (n + 1) : Nat) : Int) = 2 ^ n * 2 := by push_cast; ring
  apply Int.bmod_eq_of_le
  · push_cast; rw [pow_succ]; omega
  · push_cast; rw [pow_succ]; omega

theorem left_over {w k : Nat} (hk : k ≤ w) (d : BitVec w) :
    d &&& BitVec.ofNat w (2 ^ k - 1) = BitVec.ofInt w (d.toInt % 2 ^ k) := by
  apply BitVec.eq_of_toNat_eq
  have hlt : 2 ^ k - 1 < 2 ^ w := by
    have := Nat.pow_le_pow_right (show 0 < 2 by omega) hk
    have := Nat.pow_pos (n := k) (show 0 < 2 by omega)
    omega
  rw [BitVec.toNat_and, BitVec.toNat_ofNat, Nat.mod_eq_of_lt hlt, Nat.and_two_pow_sub_one_eq_mod,
    BitVec.toNat_ofInt]
  have h0 : (d.toInt % 2 ^ k) = ((d.toNat % 2 ^ k : Nat) : Int) := by
    rw [BitVec.toInt_eq_toNat_bmod]
    push_cast
    have hdv : (2 ^ k : Int) ∣ ((2 ^ w : Nat) : Int) := by
      push_cast; exact pow_dvd_pow 2 hk
    obtain ⟨c, hc⟩ := hdv
    have hb : ∃ z : Int, (d.toNat : Int).bmod (2 ^ w) = d.toNat + ((2 ^ w : Nat) : Int) * z := by
      rw [Int.bmod_def]
      split
      · exact ⟨-((d.toNat : Int) / ((2 ^ w : Nat) : Int)), by
          rw [Int.emod_def]; ring⟩
      · exact ⟨-((d.toNat : Int) / ((2 ^ w : Nat) : Int)) - 1, by
          rw [Int.emod_def]; ring⟩
    obtain ⟨z, hz⟩ := hb
    rw [hz, hc, mul_assoc, Int.add_mul_emod_self_left]
  rw [h0]
  have hlt2 : d.toNat % 2 ^ k < 2 ^ w :=
    lt_of_le_of_lt (Nat.mod_le _ _) d.isLt
  rw [← Int.natCast_mod, Int.toNat_natCast, Nat.mod_eq_of_lt hlt2]

/-- C70: an encoder that is sampled fast enough is counted exactly: whatever the movements and whenever
the user takes the delta, the driver returns what an ideal counter returns. -/
theorem C70_counts_exactly {w k : Nat} (hk : k < w) (ops : List Op) : ∀ (s : Ideal),
    -2 ^ (w - 1) ≤ s.pending → s.pending < 2 ^ (w - 1) → Fast k w ops s →
    real k ops (⟨getRaw (signals s.position), BitVec.ofInt w s.pending⟩ : Input w) = ideal k ops s := by
  induction ops with
  | nil => intro s _ _ _; rfl
  | cons op ops ih =>
    intro s h1 h2 hf
    cases op with
    | sample p =>
      obtain ⟨⟨f1, f2⟩, ⟨f3, f4⟩, f5⟩ := hf
      have := ih ⟨p, s.pending + (p - s.position)⟩ f3 f4 f5
      rw [BitVec.ofInt_add] at this
      rw [real, ideal, update_signals _ _ _ f1 f2]
      exact this
    | take =>
      have hd := toInt_fits (show 0 < w by omega) s.pending h1 h2
      have hp : (0 : Int) < 2 ^ k := by positivity
      have hkw : (2 : Int) ^ k ≤ 2 ^ (w - 1) := pow_le_pow_right₀ (by omega) (by omega)
      have hm1 := Int.emod_nonneg s.pending (show (2 : Int) ^ k ≠ 0 by omega)
      have hm2 := Int.emod_lt_of_pos s.pending hp
      rw [real, ideal]
      simp only [Input.getDelta]
      rw [left_over (by omega), hd, BitVec.toInt_sshiftRight, hd, Int.shiftRight_eq_div_pow]
      have := ih ⟨s.position, s.pending % 2 ^ k⟩ (by simp only; omega) (by simp only; omega) hf
      simp only at this
      rw [this]
      push_cast
      rfl

/-- C70: what the ideal counter returns, times the prescaler, and what it keeps add up to the way of the
encoder. -/
theorem C70_ideal_conserves (k : Nat) (ops : List Op) : ∀ s : Ideal,
    2 ^ k * (ideal k ops s).sum + (idealEnd k ops s).pending =
      s.pending + ((idealEnd k ops s).position - s.position) := by
  induction ops with
  | nil => intro s; simp [ideal, idealEnd]
  | cons op ops ih =>
    intro s
    cases op with
    | sample p => rw [ideal, idealEnd, ih]; simp only; ring
    | take =>
      rw [ideal, idealEnd, List.sum_cons, mul_add, add_assoc, ih]
      simp only
      have := Int.mul_ediv_add_emod s.pending (2 ^ k)
      linarith

/-- The driver as `initialize` leaves it. -/
theorem C70_init (w : Nat) (p : Int) :
    (Input.init (signals p) : Input w) = ⟨getRaw (signals p), BitVec.ofInt w 0⟩ := by
  simp [Input.init]

example : real 2 [.sample 1, .sample 2, .sample 3, .take, .sample 4, .sample 5, .take, .sample 4,
    .sample 3, .sample 2, .sample 1, .sample 0, .sample (-1), .take]
      (Input.init (signals 0) : Input 8) = [0, 1, -2] := by decide

example : Fast 2 8 [.sample 1, .sample 2, .take, .sample 1] ⟨0, 0⟩ := by
  simp [Fast]

/-! ### C71 -/

/-- C71, what does hold: the output reaches its setpoint: every tick brings it one step nearer. -/
theorem C71_reaches_setpoint (o : Output) (n : Nat) (h : (o.setpoint - o.actual).natAbs ≤ n) :
    (ticks n o).actual = o.setpoint ∧ (ticks n o).setpoint = o.setpoint := by
  induction n generalizing o with
  | zero => exact ⟨by show o.actual = _; omega, rfl⟩
  | succ n ih =>
    have hs : o.tick.setpoint = o.setpoint := by
      unfold Output.tick forward backward
      split
      · cases o.state <;> rfl
      · split
        · cases o.state <;> rfl
        · rfl
    have ha : (o.tick.setpoint - o.tick.actual).natAbs ≤ n := by
      rw [hs]
      unfold Output.tick
      split
      · have : (forward o).actual = o.actual + 1 := by unfold forward; cases o.state <;> rfl
        rw [this]; omega
      · split
        · have : (backward o).actual = o.actual - 1 := by unfold backward; cases o.state <;> rfl
          rw [this]; omega
        · omega
    rw [ticks]
    have := ih o.tick ha
    rw [hs] at this
    exact this

/-- The pins that belong to a state. -/
def pinsOf : State → Pins
  | .state0 => ⟨true, true⟩
  | .state1 => ⟨false, true⟩
  | .state2 => ⟨false, false⟩
  | .state3 => ⟨true, false⟩

theorem forward_pins (o : Output) (h : o.pins = pinsOf o.state) :
    (forward o).pins = pinsOf (forward o).state ∧ step o.pins (forward o).pins = 1 := by
  unfold forward
  cases hs : o.state <;> rw [hs] at h <;> simp only [h, pinsOf] <;> decide

/-- C71, what does hold: as long as the output moves forwards, a decoder of its signals follows it exactly.
Missing: backwards, see `C71_backward_counterexample`. -/
theorem C71_forward_partial (n : Nat) : ∀ (o : Output), o.pins = pinsOf o.state →
    o.actual ≤ o.setpoint →
    decoded n o = (ticks n o).actual - o.actual ∧ (ticks n o).pins = pinsOf (ticks n o).state := by
  induction n with
  | zero => intro o h _; exact ⟨by simp [decoded, ticks], h⟩
  | succ n ih =>
    intro o h hle
    by_cases hlt : o.setpoint > o.actual
    · have ht : o.tick = forward o := by rw [Output.tick, if_pos hlt]
      have ha : (forward o).actual = o.actual + 1 := by unfold forward; cases o.state <;> rfl
      have hs : (forward o).setpoint = o.setpoint := by unfold forward; cases o.state <;> rfl
      obtain ⟨f1, f2⟩ := forward_pins o h
      obtain ⟨i1, i2⟩ := ih (forward o) f1 (by omega)
      rw [decoded, ticks, ht, f2, i1, ha]
      exact ⟨by omega, i2⟩
    · have ht : o.tick = o := by rw [Output.tick, if_neg hlt, if_neg (by omega)]
      obtain ⟨i1, i2⟩ := ih o h hle
      rw [decoded, ticks, ht]
      refine ⟨?_, i2⟩
      rw [i1]
      have : step o.pins o.pins = 0 := by
        rcases o.pins with ⟨a, b⟩; cases a <;> cases b <;> rfl
      omega

theorem init_pins (v : Int) : (Output.init v).pins = pinsOf (Output.init v).state := rfl

example : decoded 10 ((Output.init 5).setPosition 12) = 7 := by decide

/-- The pins of an output that has moved backwards for a while. -/
def wrongPins : State → Pins
  | .state0 => ⟨false, true⟩
  | .state1 => ⟨true, true⟩
  | .state2 => ⟨true, false⟩
  | .state3 => ⟨false, false⟩

theorem backward_steps (n : Nat) : ∀ (o : Output), o.pins = wrongPins o.state →
    o.setpoint + n ≤ o.actual → decoded n o = n ∧ (ticks n o).actual = o.actual - n := by
  induction n with
  | zero => intro o _ _; simp [decoded, ticks]
  | succ n ih =>
    intro o h hle
    push_cast at hle
    have ht : o.tick = backward o := by rw [Output.tick, if_neg (by omega), if_pos (by omega)]
    have ha : (backward o).actual = o.actual - 1 := by unfold backward; cases o.state <;> rfl
    have hs : (backward o).setpoint = o.setpoint := by unfold backward; cases o.state <;> rfl
    have hp : (backward o).pins = wrongPins (backward o).state ∧
        step o.pins (backward o).pins = 1 := by
      unfold backward
      cases hs : o.state <;> rw [hs] at h <;> simp only [h, wrongPins] <;> decide
    obtain ⟨i1, i2⟩ := ih (backward o) hp.1 (by omega)
    rw [decoded, ticks, ht, hp.2, i1, i2, ha]
    push_cast
    exact ⟨by ring, by ring⟩

/-- C71 is false: an output that moves `n + 4` steps backwards looks to a decoder as if it moved
`n + 1` steps forwards, since signal A is driven the wrong way round. -/
theorem C71_backward_counterexample (v target : Int) (n : Nat) (h : target + n + 4 ≤ v) :
    decoded (n + 4) ((Output.init v).setPosition target) = n + 1 ∧
      (ticks (n + 4) ((Output.init v).setPosition target)).actual = v - (n + 4) := by
  have h1 : ((Output.init v).setPosition target).tick = ⟨target, v - 1, .state3, ⟨true, false⟩⟩ := by
    rw [Output.tick, if_neg (by simp only [Output.setPosition, Output.init]; omega),
      if_pos (by simp only [Output.setPosition, Output.init]; omega)]
    rfl
  have h2 : (⟨target, v - 1, .state3, ⟨true, false⟩⟩ : Output).tick =
      ⟨target, v - 1 - 1, .state2, ⟨true, false⟩⟩ := by
    rw [Output.tick, if_neg (by simp only; omega), if_pos (by simp only; omega)]; rfl
  have h3 : (⟨target, v - 1 - 1, .state2, ⟨true, false⟩⟩ : Output).tick =
      ⟨target, v - 1 - 1 - 1, .state1, ⟨true, true⟩⟩ := by
    rw [Output.tick, if_neg (by simp only; omega), if_pos (by simp only; omega)]; rfl
  have h4 : (⟨target, v - 1 - 1 - 1, .state1, ⟨true, true⟩⟩ : Output).tick =
      ⟨target, v - 1 - 1 - 1 - 1, .state0, ⟨false, true⟩⟩ := by
    rw [Output.tick, if_neg (by simp only; omega), if_pos (by simp only; omega)]; rfl
  obtain ⟨i1, i2⟩ := backward_steps n ⟨target, v - 1 - 1 - 1 - 1, .state0, ⟨false, true⟩⟩ rfl
    (by simp only; omega)
  constructor
  · rw [decoded, h1, decoded, h2, decoded, h3, decoded, h4, i1]
    have e1 : step ((Output.init v).setPosition target).pins ⟨true, false⟩ = -1 := rfl
    have e2 : step ⟨true, false⟩ ⟨true, false⟩ = 0 := rfl
    have e3 : step ⟨true, false⟩ ⟨true, true⟩ = 1 := rfl
    have e4 : step ⟨true, true⟩ ⟨false, true⟩ = 1 := rfl
    simp only [e1, e2, e3, e4]
    ring
  · rw [ticks, h1, ticks, h2, ticks, h3, ticks, h4, i2]
    ring

example : decoded 12 ((Output.init 0).setPosition (-12)) = 9 := by decide

/-! ### C72 -/

/-- C72 for a delta of at most 16 bits: the delta is the movement of the counter, if that fits into the type,
wherever the counter wraps around. -/
theorem C72_delta_partial (w : Nat) (hw : 0 < w) (h16 : w ≤ 16) (last : BitVec 16) (move : Int)
    (h1 : -2 ^ (w - 1) ≤ move) (h2 : move < 2 ^ (w - 1)) :
    (timerDelta w last (last + BitVec.ofInt 16 move)).toInt = move := by
  have e : timerDelta w last (last + BitVec.ofInt 16 move) = BitVec.ofInt w move := by
    unfold timerDelta
    apply BitVec.eq_of_toNat_eq
    rw [BitVec.toNat_ofInt, BitVec.toNat_ofInt, BitVec.toNat_add, BitVec.toNat_ofInt]
    congr 1
    apply Int.emod_eq_emod_iff_emod_sub_eq_zero.mpr
    apply Int.emod_eq_zero_of_dvd
    have hd : ((2 ^ w : Nat) : Int) ∣ 65536 := by
      have : (65536 : Int) = ((2 ^ 16 : Nat) : Int) := by norm_num
      rw [this]
      exact_mod_cast pow_dvd_pow 2 h16
    refine dvd_trans hd ?_
    push_cast
    omega
  rw [e, toInt_fits hw move h1 h2]

example : (timerDelta 16 0xfffe 3).toInt = 5 := by decide

/-- C72 is false for a delta of 32 bits: a single step across the wrap of the counter is reported as
65535 steps the other way. -/
theorem C72_delta32_counterexample : (timerDelta 32 0xffff 0).toInt = -65535 ∧
    (timerDelta 32 0 0xffff).toInt = 65535 := by decide

/-! ### C73 -/

theorem parity_bit (x : BitVec 16) : (evenParity x).getLsbD 15 =
    (x.getLsbD 0 ^^ x.getLsbD 1 ^^ x.getLsbD 2 ^^ x.getLsbD 3 ^^ x.getLsbD 4 ^^ x.getLsbD 5 ^^
      x.getLsbD 6 ^^ x.getLsbD 7 ^^ x.getLsbD 8 ^^ x.getLsbD 9 ^^ x.getLsbD 10 ^^ x.getLsbD 11 ^^
      x.getLsbD 12 ^^ x.getLsbD 13 ^^ x.getLsbD 14) := by
  have hc : ∀ i, (0x7fff : BitVec 16).getLsbD i = decide (i < 15) := by
    intro i
    by_cases h : i < 16
    · interval_cases i <;> rfl
    · rw [BitVec.getLsbD_of_ge _ _ (by omega)]; simp; omega
  have h1 : ∀ i, (1 : BitVec 16).getLsbD i = decide (i = 0) := by
    intro i
    by_cases h : i < 16
    · interval_cases i <;> rfl
    · rw [BitVec.getLsbD_of_ge _ _ (by omega)]; simp; omega
  simp only [evenParity, BitVec.getLsbD_or, BitVec.getLsbD_and, BitVec.getLsbD_shiftLeft,
    BitVec.getLsbD_xor, BitVec.getLsbD_ushiftRight, hc, h1]
  simp
  have hl : ∀ a b c : Bool, (a != (b != c)) = (b != (a != c)) := by decide
  have hc : ∀ a b : Bool, (a != b) = (b != a) := by decide
  simp only [hl, hc]

theorem parity_low (x : BitVec 16) (i : Nat) (h : i < 15) :
    (evenParity x).getLsbD i = x.getLsbD i := by
  have hc : (0x7fff : BitVec 16).getLsbD i = true := by
    interval_cases i <;> rfl
  simp only [evenParity, BitVec.getLsbD_or, BitVec.getLsbD_and, BitVec.getLsbD_shiftLeft, hc]
  simp [h]

/-- C73: the word sent to the sensor has an even number of ones and the 15 bits of the command. -/
theorem C73_even_parity (x : BitVec 16) :
    ones (evenParity x) % 2 = 0 ∧ ∀ i, i < 15 → (evenParity x).getLsbD i = x.getLsbD i := by
  refine ⟨?_, parity_low x⟩
  have hr : List.range 16 = [0, 1, 2, 3, 4, 5, 6, 7, 8, 9, 10, 11, 12, 13, 14, 15] := rfl
  have hl : ∀ (l : List Nat), (l.filter fun i => (evenParity x).getLsbD i).length =
      (l.map fun i => ((evenParity x).getLsbD i).toNat).sum := by
    intro l
    induction l with
    | nil => rfl
    | cons a l ih => rw [List.filter_cons]; cases h : (evenParity x).getLsbD a <;> simp [h, ih]; omega
  rw [ones, hl, hr]
  simp only [List.map_cons, List.map_nil, List.sum_cons, List.sum_nil]
  have hx : ∀ a b : Bool, (a ^^ b).toNat = (a.toNat + b.toNat) % 2 := by decide
  rw [parity_bit, parity_low x 0 (by omega), parity_low x 1 (by omega), parity_low x 2 (by omega),
    parity_low x 3 (by omega), parity_low x 4 (by omega), parity_low x 5 (by omega),
    parity_low x 6 (by omega), parity_low x 7 (by omega), parity_low x 8 (by omega),
    parity_low x 9 (by omega), parity_low x 10 (by omega), parity_low x 11 (by omega),
    parity_low x 12 (by omega), parity_low x 13 (by omega), parity_low x 14 (by omega)]
  simp only [hx]
  omega

example : evenParity 0x3fff = 0x3fff ∧ evenParity 0x0001 = 0x8001 := by decide

end Props.Encoder
