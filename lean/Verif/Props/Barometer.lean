import Mathlib.Tactic.Linarith
import Mathlib.Tactic.Ring
import Mathlib.Tactic.NormNum
import Mathlib.Tactic.IntervalCases
import Verif.Model.Barometer
set_option autoImplicit false

/-!
# Theorems about pressure sensors (C263 – C268)
-/

namespace Props.Barometer
open Model.Barometer

/-! ## Formulas of the data sheets (exact integers; `/` rounds down) -/

/-- Words of 16 bits. -/
def Prom.Ok (p : Prom) : Prop :=
  p.c1 < 65536 ∧ p.c2 < 65536 ∧ p.c3 < 65536 ∧ p.c4 < 65536 ∧ p.c5 < 65536 ∧ p.c6 < 65536

def dsDT (p : Prom) (d2 : Nat) : Int := d2 - p.c5 * 256
def dsTemp (p : Prom) (d2 : Nat) : Int := 2000 + dsDT p d2 * p.c6 / 8388608
def dsOff (p : Prom) (d2 : Nat) : Int := p.c2 * 65536 + p.c4 * dsDT p d2 / 128
def dsSens (p : Prom) (d2 : Nat) : Int := p.c1 * 32768 + p.c3 * dsDT p d2 / 256

/-- MS5611: pressure in Pa, temperature in 0.01 °C. -/
def ds5611 (p : Prom) (d1 d2 : Nat) : Int × Int :=
  let dT := dsDT p d2
  let t := dsTemp p d2
  let (t2, off2, sens2) : Int × Int × Int :=
    if t < 2000 then
      if t < -1500 then
        (dT * dT / 2147483648, 5 * ((t - 2000) * (t - 2000)) / 2 + 7 * ((t + 1500) * (t + 1500)),
          5 * ((t - 2000) * (t - 2000)) / 4 + 11 * ((t + 1500) * (t + 1500)) / 2)
      else (dT * dT / 2147483648, 5 * ((t - 2000) * (t - 2000)) / 2, 5 * ((t - 2000) * (t - 2000)) / 4)
    else (0, 0, 0)
  ((((dsSens p d2 - sens2) * d1) / 2097152 - (dsOff p d2 - off2)) / 32768, t - t2)

/-- MS5837-30BA: pressure in 0.1 mbar, temperature in 0.01 °C. -/
def ds5837 (p : Prom) (d1 d2 : Nat) : Int × Int :=
  let dT := dsDT p d2
  let t := dsTemp p d2
  let (t2, off2, sens2) : Int × Int × Int :=
    if t < 2000 then
      if t < -1500 then
        (3 * (dT * dT) / 8589934592, 3 * ((t - 2000) * (t - 2000)) / 2 + 7 * ((t + 1500) * (t + 1500)),
          5 * ((t - 2000) * (t - 2000)) / 8 + 4 * ((t + 1500) * (t + 1500)))
      else (3 * (dT * dT) / 8589934592, 3 * ((t - 2000) * (t - 2000)) / 2, 5 * ((t - 2000) * (t - 2000)) / 8)
    else (2 * (dT * dT) / 137438953472, (t - 2000) * (t - 2000) / 16, 0)
  ((((dsSens p d2 - sens2) * d1) / 2097152 - (dsOff p d2 - off2)) / 8192, t - t2)

/-! ## Bounds -/

theorem mb {a b A B : Int} (ha : -A ≤ a ∧ a ≤ A) (hb : -B ≤ b ∧ b ≤ B) :
    -(A * B) ≤ a * b ∧ a * b ≤ A * B := by
  constructor <;> nlinarith [ha.1, ha.2, hb.1, hb.2]

theorem i64_some {x : Int} (h : -9223372036854775808 ≤ x ∧ x ≤ 9223372036854775807) : i64 x = some x := by
  unfold i64; rw [if_pos h]

theorem i32_some {x : Int} (h : -2147483648 ≤ x ∧ x ≤ 2147483647) : i32 x = some x := by
  unfold i32; rw [if_pos h]

theorem i32_none {x : Int} (h : ¬ (-2147483648 ≤ x ∧ x ≤ 2147483647)) : i32 x = none := by
  unfold i32; rw [if_neg h]

theorem wrap32_id {x : Int} (h : -2147483648 ≤ x ∧ x ≤ 2147483647) : wrap32 x = x := by
  unfold wrap32; omega

theorem wrap16_id {x : Int} (h : -32768 ≤ x ∧ x ≤ 32767) : wrap16 x = x := by
  unfold wrap16; omega

theorem square_some {k x K : Int} (hk : 0 ≤ k ∧ k ≤ 11) (hx : -K ≤ x ∧ x ≤ K) (h : k * (K * K) ≤ 2147483647) (hK : K ≤ 131072) :
    square k x = some (k * (x * x)) ∧ 0 ≤ k * (x * x) ∧ k * (x * x) ≤ k * (K * K) := by
  have h1 := mb hx hx
  have h0 : 0 ≤ x * x := mul_self_nonneg x
  have h2 : 0 ≤ k * (x * x) := mul_nonneg hk.1 h0
  have h3 : k * (x * x) ≤ k * (K * K) := mul_le_mul_of_nonneg_left h1.2 hk.1
  have h4 := mb (a := k) (b := x) (A := 11) (B := K) ⟨by omega, hk.2⟩ hx
  refine ⟨?_, h2, h3⟩
  unfold square
  rw [i32_some (by omega)]
  show i32 (k * x * x) = _
  rw [mul_assoc, i32_some (by omega)]

theorem square_none {k x : Int} (h : 2147483647 < k * (x * x)) : square k x = none := by
  unfold square
  by_cases hc : -2147483648 ≤ k * x ∧ k * x ≤ 2147483647
  · rw [i32_some hc]
    show i32 (k * x * x) = _
    rw [mul_assoc, i32_none (by omega)]
  · rw [i32_none hc]; rfl

/-- Everything that does not depend on the second order. -/
structure Basic (p : Prom) (d1 d2 : Nat) : Prop where
  dT : -16777216 ≤ dsDT p d2 ∧ dsDT p d2 ≤ 16777216
  a : -1099511627776 ≤ (p.c4 : Int) * dsDT p d2 ∧ (p.c4 : Int) * dsDT p d2 ≤ 1099511627776
  b : -1099511627776 ≤ (p.c3 : Int) * dsDT p d2 ∧ (p.c3 : Int) * dsDT p d2 ≤ 1099511627776
  c : -1099511627776 ≤ dsDT p d2 * (p.c6 : Int) ∧ dsDT p d2 * (p.c6 : Int) ≤ 1099511627776
  q : 0 ≤ dsDT p d2 * dsDT p d2 ∧ dsDT p d2 * dsDT p d2 ≤ 281474976710656
  off : -8589934592 ≤ dsOff p d2 ∧ dsOff p d2 ≤ 12884901888
  sens : -4294967296 ≤ dsSens p d2 ∧ dsSens p d2 ≤ 6442450944
  temp : -129072 ≤ dsTemp p d2 ∧ dsTemp p d2 ≤ 133072
  w : wrap32 (((d2 : Int) - (p.c5 : Int) * 256) % 4294967296) = dsDT p d2
  d1 : (d1 : Int) < 16777216

theorem basic {p : Prom} {d1 d2 : Nat} (hp : Prom.Ok p) (h1 : d1 < 16777216) (h2 : d2 < 16777216) : Basic p d1 d2 := by
  obtain ⟨hc1, hc2, hc3, hc4, hc5, hc6⟩ := hp
  have hd : -16777216 ≤ dsDT p d2 ∧ dsDT p d2 ≤ 16777216 := by unfold dsDT; omega
  have a := mb (a := (p.c4 : Int)) (A := 65536) (by omega) hd
  have b := mb (a := (p.c3 : Int)) (A := 65536) (by omega) hd
  have c := mb (b := (p.c6 : Int)) (B := 65536) hd (by omega)
  have q := mb hd hd
  have q0 : 0 ≤ dsDT p d2 * dsDT p d2 := mul_self_nonneg _
  norm_num at a b c q
  refine ⟨hd, a, b, c, ⟨q0, q.2⟩, ?_, ?_, ?_, ?_, by omega⟩
  · unfold dsOff; omega
  · unfold dsSens; omega
  · unfold dsTemp; omega
  · show wrap32 ((dsDT p d2) % 4294967296) = dsDT p d2
    unfold wrap32; omega

/-! ## C263: compensation of MS5611 -/

/-- From −154.72 °C on (the device works from −40 °C): pressure and temperature are
those of the data sheet; nothing overflows. -/
theorem C263_datasheet_partial (p : Prom) (d1 d2 : Nat) (hp : Prom.Ok p) (h1 : d1 < 16777216) (h2 : d2 < 16777216)
    (ht : -15472 ≤ dsTemp p d2) : ms5611 p d1 d2 = some (ds5611 p d1 d2) := by
  have B := basic hp h1 h2
  have hT : wrap32 (2000 + dsDT p d2 * (p.c6 : Int) / 8388608) = dsTemp p d2 := by
    have := B.temp; unfold dsTemp at this ⊢; exact wrap32_id (by omega)
  unfold ms5611
  simp only [B.w, hT]
  rw [i64_some (by have := B.a; omega), i64_some (by have := B.b; omega), i64_some (by have := B.c; omega)]
  simp only [Option.bind_eq_bind, Option.bind_some]
  rw [i64_some (x := (p.c2 : Int) * 65536 + (p.c4 : Int) * dsDT p d2 / 128) (by have := B.off; unfold dsOff at this; omega),
    i64_some (x := (p.c1 : Int) * 32768 + (p.c3 : Int) * dsDT p d2 / 256) (by have := B.sens; unfold dsSens at this; omega)]
  simp only [Option.bind_some, hT]
  have key : ∃ t2 off2 sens2, ms5611Second (dsDT p d2) (dsTemp p d2) = some (t2, off2, sens2) ∧
      ds5611 p d1 d2 = ((((dsSens p d2 - sens2) * d1) / 2097152 - (dsOff p d2 - off2)) / 32768, dsTemp p d2 - t2) ∧
      0 ≤ t2 ∧ t2 ≤ 131072 ∧ 0 ≤ off2 ∧ off2 ≤ 3221225472 ∧ 0 ≤ sens2 ∧ sens2 ≤ 2147483648 := by
    have hq := B.q
    unfold ds5611 ms5611Second
    by_cases hl : dsTemp p d2 < 2000
    · obtain ⟨e5, a5, b5⟩ := square_some (k := 5) (x := dsTemp p d2 - 2000) (K := 17472) (by decide) (by omega) (by norm_num) (by norm_num)
      norm_num at b5
      simp only [if_pos hl]
      unfold ms5611Low
      rw [i64_some (by omega), e5]
      simp only [Option.bind_eq_bind, Option.bind_some]
      by_cases hv : dsTemp p d2 < -1500
      · obtain ⟨e7, a7, b7⟩ := square_some (k := 7) (x := dsTemp p d2 + 1500) (K := 13972) (by decide) (by omega) (by norm_num) (by norm_num)
        obtain ⟨e11, a11, b11⟩ := square_some (k := 11) (x := dsTemp p d2 + 1500) (K := 13972) (by decide) (by omega) (by norm_num) (by norm_num)
        norm_num at b7 b11
        have g0 : 0 ≤ 5 * ((dsTemp p d2 - 2000) * (dsTemp p d2 - 2000)) / 2 / 2 := by omega
        have h0 : 0 ≤ 11 * ((dsTemp p d2 + 1500) * (dsTemp p d2 + 1500)) / 2 := by omega
        have g1 : 5 * ((dsTemp p d2 - 2000) * (dsTemp p d2 - 2000)) / 2 / 2 ≤ 1073741824 := by omega
        have h1 : 11 * ((dsTemp p d2 + 1500) * (dsTemp p d2 + 1500)) / 2 ≤ 1073741824 := by omega
        simp only [if_pos hv, e7, e11, Option.bind_some]
        refine ⟨_, _, _, rfl, ?_, by omega, by omega, by omega, by omega, by omega, by omega⟩
        congr 3; congr 2; omega
      · simp only [if_neg hv]
        refine ⟨_, _, _, rfl, ?_, by omega, by omega, by omega, by omega, by omega, by omega⟩
        congr 3; congr 2; omega
    · simp only [if_neg hl]
      exact ⟨0, 0, 0, rfl, rfl, by omega, by omega, by omega, by omega, by omega, by omega⟩
  obtain ⟨t2, off2, sens2, e, hds, ht1, ht2, ho1, ho2, hs1, hs2⟩ := key
  rw [e, hds]
  simp only [Option.bind_some]
  have eo : (p.c2 : Int) * 65536 + (p.c4 : Int) * dsDT p d2 / 128 = dsOff p d2 := rfl
  have es : (p.c1 : Int) * 32768 + (p.c3 : Int) * dsDT p d2 / 256 = dsSens p d2 := rfl
  rw [eo, es, i64_some (x := dsOff p d2 - off2) (by have := B.off; omega), i64_some (x := dsSens p d2 - sens2) (by have := B.sens; omega)]
  simp only [Option.bind_some]
  have hm := mb (a := dsSens p d2 - sens2) (A := 8589934592) (b := (d1 : Int)) (B := 16777216) (by have := B.sens; omega) (by have := B.d1; omega)
  norm_num at hm
  rw [i64_some (by omega)]
  simp only [Option.bind_some]
  rw [i64_some (by have := B.off; omega)]
  simp only [Option.bind_some]
  rw [wrap32_id (by have := B.off; omega), wrap32_id (by have := B.temp; omega)]
  rfl

/-- The datasheet's example: 1000.09 mbar and 20.07 °C. -/
example : ms5611 ⟨40127, 36924, 23317, 23282, 33464, 28312⟩ 9085466 8569150 = some (100009, 2007) := by decide

/-- Below −154.72 °C the squares overflow `int`: undefined behaviour. -/
theorem C263_overflow_counterexample (p : Prom) (d1 d2 : Nat) (hp : Prom.Ok p) (h1 : d1 < 16777216) (h2 : d2 < 16777216)
    (ht : dsTemp p d2 < -15472) : ms5611 p d1 d2 = none := by
  have B := basic hp h1 h2
  have hT : wrap32 (2000 + dsDT p d2 * (p.c6 : Int) / 8388608) = dsTemp p d2 := by
    have := B.temp; unfold dsTemp at this ⊢; exact wrap32_id (by omega)
  have hlow : ms5611Second (dsDT p d2) (dsTemp p d2) = none := by
    unfold ms5611Second ms5611Low
    rw [if_pos (by omega), i64_some (by have := B.q; omega)]
    simp only [Option.bind_eq_bind, Option.bind_some]
    have n11 : square 11 (dsTemp p d2 + 1500) = none := by
      apply square_none; nlinarith
    cases square 5 (dsTemp p d2 - 2000) with
    | none => rfl
    | some v =>
      simp only [Option.bind_some]
      rw [if_pos (by omega), n11]
      cases square 7 (dsTemp p d2 + 1500) <;> rfl
  unfold ms5611
  simp only [B.w, hT]
  rw [i64_some (by have := B.a; omega), i64_some (by have := B.b; omega), i64_some (by have := B.c; omega)]
  simp only [Option.bind_eq_bind, Option.bind_some]
  rw [i64_some (x := (p.c2 : Int) * 65536 + (p.c4 : Int) * dsDT p d2 / 128) (by have := B.off; unfold dsOff at this; omega),
    i64_some (x := (p.c1 : Int) * 32768 + (p.c3 : Int) * dsDT p d2 / 256) (by have := B.sens; unfold dsSens at this; omega)]
  simp only [Option.bind_some, hT]
  rw [hlow]; rfl

/-- The chip answers 0 when it is asked for a result without a conversion: with the
calibration of the data sheet that is such a case. -/
theorem C263_zero_counterexample : ms5611 ⟨40127, 36924, 23317, 23282, 33464, 28312⟩ 9085466 0 = none := by decide

/-! ## C264: compensation of MS5837 -/

/-- From −187.24 °C to 483.40 °C (the device works from −20 °C to 85 °C). -/
theorem C264_datasheet_partial (p : Prom) (d1 d2 : Nat) (hp : Prom.Ok p) (h1 : d1 < 16777216) (h2 : d2 < 16777216)
    (ht : -18724 ≤ dsTemp p d2) (ht' : dsTemp p d2 ≤ 48340) : ms5837 p d1 d2 = some (ds5837 p d1 d2) := by
  have B := basic hp h1 h2
  have hT : wrap32 (2000 + dsDT p d2 * (p.c6 : Int) / 8388608) = dsTemp p d2 := by
    have := B.temp; unfold dsTemp at this ⊢; exact wrap32_id (by omega)
  unfold ms5837
  simp only [B.w, hT]
  rw [i64_some (x := dsDT p d2 * (p.c6 : Int)) (by have := B.c; omega)]
  simp only [Option.bind_eq_bind, Option.bind_some, hT]
  rw [i64_some (x := (p.c4 : Int) * dsDT p d2) (by have := B.a; omega), i64_some (x := (p.c3 : Int) * dsDT p d2) (by have := B.b; omega)]
  simp only [Option.bind_some]
  rw [i64_some (x := (p.c2 : Int) * 65536 + (p.c4 : Int) * dsDT p d2 / 128) (by have := B.off; unfold dsOff at this; omega),
    i64_some (x := (p.c1 : Int) * 32768 + (p.c3 : Int) * dsDT p d2 / 256) (by have := B.sens; unfold dsSens at this; omega)]
  simp only [Option.bind_some]
  have key : ∃ t2 off2 sens2, ms5837Second (dsDT p d2) (dsTemp p d2) = some (t2, off2, sens2) ∧
      ds5837 p d1 d2 = ((((dsSens p d2 - sens2) * d1) / 2097152 - (dsOff p d2 - off2)) / 8192, dsTemp p d2 - t2) ∧
      0 ≤ t2 ∧ t2 ≤ 131072 ∧ 0 ≤ off2 ∧ off2 ≤ 3221225472 ∧ 0 ≤ sens2 ∧ sens2 ≤ 2147483648 := by
    have hq := B.q
    unfold ds5837 ms5837Second
    rw [i64_some (by omega)]
    simp only [Option.bind_eq_bind, Option.bind_some]
    by_cases hl : dsTemp p d2 < 2000
    · obtain ⟨e5, a5, b5⟩ := square_some (k := 5) (x := dsTemp p d2 - 2000) (K := 20724) (by decide) (by omega) (by norm_num) (by norm_num)
      obtain ⟨e3, a3, b3⟩ := square_some (k := 3) (x := dsTemp p d2 - 2000) (K := 20724) (by decide) (by omega) (by norm_num) (by norm_num)
      norm_num at b5 b3
      have g5 : 0 ≤ 5 * ((dsTemp p d2 - 2000) * (dsTemp p d2 - 2000)) / 8 ∧ 5 * ((dsTemp p d2 - 2000) * (dsTemp p d2 - 2000)) / 8 ≤ 1073741824 := by omega
      have g3 : 0 ≤ 3 * ((dsTemp p d2 - 2000) * (dsTemp p d2 - 2000)) / 2 ∧ 3 * ((dsTemp p d2 - 2000) * (dsTemp p d2 - 2000)) / 2 ≤ 1073741824 := by omega
      simp only [if_pos hl]
      rw [i64_some (by omega), e5, e3]
      simp only [Option.bind_some]
      by_cases hv : dsTemp p d2 < -1500
      · obtain ⟨e7, a7, b7⟩ := square_some (k := 7) (x := dsTemp p d2 + 1500) (K := 17224) (by decide) (by omega) (by norm_num) (by norm_num)
        obtain ⟨e4, a4, b4⟩ := square_some (k := 4) (x := dsTemp p d2 + 1500) (K := 17224) (by decide) (by omega) (by norm_num) (by norm_num)
        norm_num at b7 b4
        simp only [if_pos hv, e7, e4, Option.bind_some]
        exact ⟨_, _, _, rfl, rfl, by omega, by omega, by omega, by omega, by omega, by omega⟩
      · simp only [if_neg hv]
        exact ⟨_, _, _, rfl, rfl, by omega, by omega, by omega, by omega, by omega, by omega⟩
    · obtain ⟨e1, a1, b1⟩ := square_some (k := 1) (x := dsTemp p d2 - 2000) (K := 46340) (by decide) (by omega) (by norm_num) (by norm_num)
      rw [one_mul] at e1 a1 b1
      norm_num at b1
      simp only [if_neg hl]
      rw [i64_some (by omega), e1]
      simp only [Option.bind_some]
      exact ⟨_, _, _, rfl, rfl, by omega, by omega, by omega, by omega, by omega, by omega⟩
  obtain ⟨t2, off2, sens2, e, hds, ht1, ht2, ho1, ho2, hs1, hs2⟩ := key
  rw [e, hds]
  simp only [Option.bind_some]
  have eo : (p.c2 : Int) * 65536 + (p.c4 : Int) * dsDT p d2 / 128 = dsOff p d2 := rfl
  have es : (p.c1 : Int) * 32768 + (p.c3 : Int) * dsDT p d2 / 256 = dsSens p d2 := rfl
  rw [eo, es, i64_some (x := dsOff p d2 - off2) (by have := B.off; omega), i64_some (x := dsSens p d2 - sens2) (by have := B.sens; omega)]
  simp only [Option.bind_some]
  have hm := mb (a := dsSens p d2 - sens2) (A := 8589934592) (b := (d1 : Int)) (B := 16777216) (by have := B.sens; omega) (by have := B.d1; omega)
  norm_num at hm
  rw [i64_some (by omega)]
  simp only [Option.bind_some]
  rw [i64_some (by have := B.off; omega)]
  simp only [Option.bind_some]
  rw [wrap32_id (by have := B.off; omega), wrap32_id (by have := B.temp; omega)]
  rfl

/-- The data sheet's example: 3999.8 mbar and 19.81 °C. -/
example : ms5837 ⟨34982, 36352, 20328, 22354, 26646, 26146⟩ 4958179 6815414 = some (39998, 1981) := by decide

/-- A result of 0 (no conversion) is undefined behaviour here as well, with the
largest reference temperature. -/
theorem C264_zero_counterexample : ms5837 ⟨34982, 36352, 20328, 22354, 65535, 26146⟩ 4958179 0 = none := by decide

/-! ## C265: check of the calibration words -/

theorem crcBit_xor (a b : BitVec 16) : crcBit (a ^^^ b) = crcBit a ^^^ crcBit b := by
  have key : ∀ r : BitVec 16, crcBit r = (r <<< 1) ^^^ (if r.getLsbD 15 then 0x3000#16 else 0#16) := by
    intro r
    unfold crcBit
    have e : (r &&& 0x8000#16) ≠ 0#16 ↔ r.getLsbD 15 = true := by
      constructor
      · intro h
        by_contra hn
        apply h
        apply BitVec.eq_of_getLsbD_eq
        intro i hi
        interval_cases i <;> simp_all
      · intro h hz
        have := congrArg (fun v : BitVec 16 => v.getLsbD 15) hz
        simp [h] at this
        simp_all
    by_cases h : r.getLsbD 15 = true
    · rw [if_pos (e.mpr h), if_pos h]
    · rw [if_neg (fun hh => h (e.mp hh)), if_neg h]; simp
  rw [key, key a, key b]
  have hs : (a ^^^ b) <<< 1 = (a <<< 1) ^^^ (b <<< 1) := BitVec.shiftLeft_xor_distrib a b 1
  rw [hs, BitVec.getLsbD_xor]
  generalize a <<< 1 = x
  generalize b <<< 1 = y
  have h1 : ∀ c : BitVec 16, (x ^^^ y) ^^^ c = x ^^^ (y ^^^ c) := fun c => BitVec.xor_assoc x y c
  have h2 : ∀ c : BitVec 16, (x ^^^ y) ^^^ c = (x ^^^ c) ^^^ y := fun c => by
    rw [BitVec.xor_assoc, BitVec.xor_assoc, BitVec.xor_comm y c]
  cases a.getLsbD 15 <;> cases b.getLsbD 15
  · simp
  · simpa using h1 _
  · simpa using h2 _
  · have := h2 0x3000#16
    simp only [Bool.xor_self, Bool.false_eq_true, if_false, if_true, BitVec.xor_zero]
    rw [← BitVec.xor_assoc, ← this, BitVec.xor_assoc, BitVec.xor_assoc, BitVec.xor_self, BitVec.xor_zero]

theorem xor4 (a b c d : BitVec 16) : (a ^^^ b) ^^^ (c ^^^ d) = (a ^^^ c) ^^^ (b ^^^ d) := by
  rw [BitVec.xor_assoc, BitVec.xor_assoc, ← BitVec.xor_assoc b c d, BitVec.xor_comm b c, BitVec.xor_assoc]

theorem crcBits_xor (n : Nat) : ∀ a b : BitVec 16, crcBits n (a ^^^ b) = crcBits n a ^^^ crcBits n b := by
  induction n with
  | zero => intro a b; rfl
  | succ n ih => intro a b; simp only [crcBits, crcBit_xor, ih]

theorem crcByte_xor (r s : BitVec 16) (a b : BitVec 8) : crcByte (r ^^^ s) (a ^^^ b) = crcByte r a ^^^ crcByte s b := by
  unfold crcByte
  rw [BitVec.setWidth_xor, xor4, crcBits_xor]

theorem fold_xor : ∀ (a b : List (BitVec 16)) (r s : BitVec 16), a.length = b.length →
    (wordBytes (List.zipWith (· ^^^ ·) a b)).foldl crcByte (r ^^^ s) = (wordBytes a).foldl crcByte r ^^^ (wordBytes b).foldl crcByte s := by
  intro a
  induction a with
  | nil =>
    intro b r s h
    cases b with
    | nil => rfl
    | cons _ _ => simp at h
  | cons x xs ih =>
    intro b r s h
    cases b with
    | nil => simp at h
    | cons y ys =>
      simp only [List.zipWith_cons_cons, wordBytes, List.foldl_cons]
      have e1 : (x ^^^ y) >>> 8 = (x >>> 8) ^^^ (y >>> 8) := BitVec.ushiftRight_xor_distrib x y 8
      rw [e1, BitVec.setWidth_xor, BitVec.setWidth_xor, crcByte_xor, crcByte_xor]
      exact ih ys _ _ (by simpa using h)

theorem and_xor (m a b : BitVec 16) : m &&& (a ^^^ b) = (m &&& a) ^^^ (m &&& b) := by
  ext i hi
  simp only [BitVec.getElem_and, BitVec.getElem_xor]
  cases m[i] <;> simp

theorem crc5611_xor (a b : List (BitVec 16)) (x y : BitVec 16) (h : a.length = b.length) :
    crc5611 (List.zipWith (· ^^^ ·) a b) (x ^^^ y) = crc5611 a x ^^^ crc5611 b y := by
  unfold crc5611
  have e : List.zipWith (· ^^^ ·) a b ++ [0xff00#16 &&& (x ^^^ y)] = List.zipWith (· ^^^ ·) (a ++ [0xff00#16 &&& x]) (b ++ [0xff00#16 &&& y]) := by
    rw [List.zipWith_append h, and_xor]; rfl
  rw [e]
  have z : (0#16) = 0#16 ^^^ 0#16 := by decide
  conv => lhs; rw [z]
  rw [fold_xor _ _ _ _ (by simp [h]), BitVec.ushiftRight_xor_distrib, and_xor]

theorem crc5837_xor (a b : List (BitVec 16)) (x y : BitVec 16) (h : a.length = b.length) :
    crc5837 (x ^^^ y) (List.zipWith (· ^^^ ·) a b) = crc5837 x a ^^^ crc5837 y b := by
  unfold crc5837
  have e : ((x ^^^ y) &&& 0x0fff#16) :: List.zipWith (· ^^^ ·) a b ++ [0#16] =
      List.zipWith (· ^^^ ·) ((x &&& 0x0fff#16) :: a ++ [0#16]) ((y &&& 0x0fff#16) :: b ++ [0#16]) := by
    rw [List.cons_append, List.cons_append, List.cons_append, List.zipWith_cons_cons, List.zipWith_append h]
    rw [BitVec.and_comm (x ^^^ y), and_xor, BitVec.and_comm x, BitVec.and_comm y]
    rfl
  rw [e]
  have z : (0#16) = 0#16 ^^^ 0#16 := by decide
  conv => lhs; arg 1; arg 1; rw [show (List.foldl crcByte 0#16) = List.foldl crcByte (0#16 ^^^ 0#16) from by rw [← z]]
  rw [fold_xor _ _ _ _ (by simp [h]), BitVec.ushiftRight_xor_distrib, BitVec.and_comm, and_xor, BitVec.and_comm, BitVec.and_comm (0x000f#16)]

/-- The words with errors in them. -/
def corrupt (ws es : List (BitVec 16)) : List (BitVec 16) := List.zipWith (· ^^^ ·) ws es

/-- The error pattern `e` in word `k` of `n`. -/
def errorAt (n k : Nat) (e : BitVec 16) : List (BitVec 16) := (List.replicate n 0#16).set k e

/-- Up to four neighbouring wrong bits, all of them checked bits or all of them bits
of the check itself (bits 4 … 7 of word 7 belong to neither). -/
def Burst5611 (k : Nat) (e : BitVec 16) : Prop :=
  ∃ p : Nat, ∃ j : Nat, 0 < p ∧ p < 16 ∧ j ≤ 12 ∧ k < 8 ∧ (k = 7 → j = 0 ∨ 8 ≤ j) ∧ e = BitVec.ofNat 16 (p * 2 ^ j)

/-- The same of MS5837: the check is in bits 12 … 15 of word 0. -/
def Burst5837 (k : Nat) (e : BitVec 16) : Prop :=
  ∃ p : Nat, ∃ j : Nat, 0 < p ∧ p < 16 ∧ j ≤ 12 ∧ k < 7 ∧ (k = 0 → j = 12 ∨ j ≤ 8) ∧ e = BitVec.ofNat 16 (p * 2 ^ j)

theorem syn5611 : ∀ k : Fin 8, ∀ p : Fin 16, ∀ j : Fin 13, 0 < p.val → (k.val = 7 → j.val = 0 ∨ 8 ≤ j.val) →
    init5611 ((errorAt 8 k (BitVec.ofNat 16 (p * 2 ^ j.val))).take 7) ((errorAt 8 k (BitVec.ofNat 16 (p * 2 ^ j.val))).getD 7 0#16) = false := by
  decide +kernel

theorem syn5837 : ∀ k : Fin 7, ∀ p : Fin 16, ∀ j : Fin 13, 0 < p.val → (k.val = 0 → j.val = 12 ∨ j.val ≤ 8) →
    init5837 ((errorAt 7 k (BitVec.ofNat 16 (p * 2 ^ j.val))).headD 0#16) ((errorAt 7 k (BitVec.ofNat 16 (p * 2 ^ j.val))).tail) = false := by
  decide +kernel

theorem xor_ne {a b c d : BitVec 16} (h : a = b) (h' : c ≠ d) : a ^^^ c ≠ b ^^^ d := by
  subst h
  intro e
  apply h'
  have := congrArg (fun v => a ^^^ v) e
  simpa [← BitVec.xor_assoc] using this

/-- `initialize` of MS5611 accepts no calibration with a wrong bit, nor with up to
four neighbouring wrong bits. -/
theorem C265_ms5611 (ws : List (BitVec 16)) (w7 : BitVec 16) (hl : ws.length = 7) (h : init5611 ws w7 = true)
    (k : Nat) (e : BitVec 16) (he : Burst5611 k e) :
    init5611 (corrupt ws ((errorAt 8 k e).take 7)) (w7 ^^^ (errorAt 8 k e).getD 7 0#16) = false := by
  obtain ⟨p, j, hp0, hp, hj, hk, hkj, rfl⟩ := he
  have hs := syn5611 ⟨k, hk⟩ ⟨p, hp⟩ ⟨j, by omega⟩ hp0 hkj
  simp only at hs
  generalize BitVec.ofNat 16 (p * 2 ^ j) = e at hs ⊢
  unfold init5611 at hs h ⊢
  unfold corrupt
  rw [crc5611_xor _ _ _ _ (by simp [hl, errorAt]), BitVec.and_comm, and_xor]
  rw [BitVec.and_comm] at hs h
  simp only [beq_eq_false_iff_ne, beq_iff_eq] at hs h ⊢
  exact xor_ne h hs

/-- The same of MS5837. -/
theorem C265_ms5837 (w0 : BitVec 16) (ws : List (BitVec 16)) (hl : ws.length = 6) (h : init5837 w0 ws = true)
    (k : Nat) (e : BitVec 16) (he : Burst5837 k e) :
    init5837 (w0 ^^^ (errorAt 7 k e).headD 0#16) (corrupt ws (errorAt 7 k e).tail) = false := by
  obtain ⟨p, j, hp0, hp, hj, hk, hkj, rfl⟩ := he
  have hs := syn5837 ⟨k, hk⟩ ⟨p, hp⟩ ⟨j, by omega⟩ hp0 hkj
  simp only at hs
  generalize BitVec.ofNat 16 (p * 2 ^ j) = e at hs ⊢
  unfold init5837 at hs h ⊢
  unfold corrupt
  rw [crc5837_xor _ _ _ _ (by simp [hl, errorAt]), BitVec.ushiftRight_xor_distrib, BitVec.and_comm, and_xor]
  rw [BitVec.and_comm] at hs h
  simp only [beq_eq_false_iff_ne, beq_iff_eq] at hs h ⊢
  exact xor_ne h hs

/-- The example of the application note AN520. -/
example : init5611 [0x3132#16, 0x3334#16, 0x3536#16, 0x3738#16, 0x3940#16, 0x4142#16, 0x4344#16] 0x450b#16 = true := by decide +kernel

example : Burst5611 3 0x0040#16 := ⟨1, 6, by decide⟩

/-- A valid calibration of MS5837, and a burst in it. -/
example : init5837 0xa104#16 [0x88a6#16, 0x8e00#16, 0x4f68#16, 0x5752#16, 0x6816#16, 0x6622#16] = true := by decide +kernel

example : Burst5837 3 0x0050#16 := ⟨5, 4, by decide⟩

/-- Nothing on the bus: each transaction that fails reads as 0, and `initialize`
reports success with a calibration of zeros. -/
theorem C265_absent_counterexample : initBus (fun _ => none) = true ∧ init5611 (List.replicate 7 0#16) 0#16 = true := by
  decide +kernel

/-! ## C266: values belong to the last measurement -/

/-- What the user does: whole readouts, and getters after them. -/
inductive Act | readout (d1 d2 : Nat) | getP | getT

def Act.evs : Act → List Ev
  | .readout a b => [.rawP a, .rawT b]
  | .getP => [.getP]
  | .getT => [.getT]

/-- The last readout. -/
def lastRead : Nat × Nat → List Act → Nat × Nat
  | r, [] => r
  | _, .readout a b :: l => lastRead (a, b) l
  | r, .getP :: l => lastRead r l
  | r, .getT :: l => lastRead r l

def Fresh (comp : Nat → Nat → Int × Int) (s : Data) : Prop :=
  (s.okP = true → s.press = (comp s.d1 s.d2).1) ∧ (s.okT = true → s.temp = (comp s.d1 s.d2).2)

theorem fresh_get {comp : Nat → Nat → Int × Int} {s : Data} (h : Fresh comp s) :
    (ev comp s .getP).2 = some (comp s.d1 s.d2).1 ∧ (ev comp s .getT).2 = some (comp s.d1 s.d2).2 := by
  constructor
  · unfold ev
    by_cases hc : s.okP = true
    · simp only [hc, if_true]; rw [h.1 hc]
    · simp [hc]
  · unfold ev
    by_cases hc : s.okT = true
    · simp only [hc, if_true]; rw [h.2 hc]
    · simp [hc]

theorem fresh_act {comp : Nat → Nat → Int × Int} (a : Act) {s : Data} (h : Fresh comp s) :
    Fresh comp (evs comp s a.evs) ∧ ((evs comp s a.evs).d1, (evs comp s a.evs).d2) = lastRead (s.d1, s.d2) [a] := by
  cases a with
  | readout a b => simp [Act.evs, evs, ev, Fresh, lastRead]
  | getP =>
    by_cases hc : s.okP = true
    · simp only [Act.evs, evs, List.foldl, ev, hc, if_true, lastRead]; exact ⟨h, trivial⟩
    · simp [Act.evs, evs, ev, Fresh, lastRead, hc]
  | getT =>
    by_cases hc : s.okT = true
    · simp only [Act.evs, evs, List.foldl, ev, hc, if_true, lastRead]; exact ⟨h, trivial⟩
    · simp [Act.evs, evs, ev, Fresh, lastRead, hc]

theorem fresh_acts {comp : Nat → Nat → Int × Int} : ∀ (l : List Act) {s : Data}, Fresh comp s →
    Fresh comp (evs comp s (l.flatMap Act.evs)) ∧
      ((evs comp s (l.flatMap Act.evs)).d1, (evs comp s (l.flatMap Act.evs)).d2) = lastRead (s.d1, s.d2) l := by
  intro l
  induction l with
  | nil => intro s h; exact ⟨h, rfl⟩
  | cons a l ih =>
    intro s h
    obtain ⟨h1, h2⟩ := fresh_act a h
    obtain ⟨h3, h4⟩ := ih h1
    have e : evs comp s ((a :: l).flatMap Act.evs) = evs comp (evs comp s a.evs) (l.flatMap Act.evs) := by
      simp [evs, List.foldl_append]
    rw [e]
    refine ⟨h3, ?_⟩
    rw [h4, h2]
    cases a <;> rfl

/-- As long as nobody asks between the two halves of a readout, the getters return the
compensated values of the last readout, however often and in whichever order. -/
theorem C266_getters_partial (comp : Nat → Nat → Int × Int) (s : Data) (hs : s.okP = false ∧ s.okT = false) (l : List Act) :
    let t := evs comp s (l.flatMap Act.evs)
    let r := lastRead (s.d1, s.d2) l
    (ev comp t .getP).2 = some (comp r.1 r.2).1 ∧ (ev comp t .getT).2 = some (comp r.1 r.2).2 := by
  obtain ⟨h1, h2⟩ := fresh_acts (comp := comp) l (s := s) ⟨by simp [hs.1], by simp [hs.2]⟩
  intro t r
  have e : (t.d1, t.d2) = r := h2
  obtain ⟨g1, g2⟩ := fresh_get h1
  have e1 : t.d1 = r.1 := congrArg Prod.fst e
  have e2 : t.d2 = r.2 := congrArg Prod.snd e
  rw [← e1, ← e2]
  exact ⟨g1, g2⟩

example : (ev (fun a b => ((a : Int) - b, b)) (evs (fun a b => ((a : Int) - b, b)) ⟨0, 0, 0, 0, false, false⟩
    ([Act.readout 7 2, .getT, .readout 9 4].flatMap Act.evs)) .getP).2 = some 5 := by decide

/-- The temperature, which depends on the raw temperature only, is right at any time. -/
theorem C266_temperature (comp : Nat → Nat → Int × Int) (hc : ∀ a b d, (comp a d).2 = (comp b d).2) (s : Data)
    (hs : s.okT = false) (l : List Ev) :
    (ev comp (evs comp s l) .getT).2 = some (comp 0 (evs comp s l).d2).2 := by
  have inv : ∀ (l : List Ev) (s : Data), (s.okT = true → s.temp = (comp 0 s.d2).2) →
      ((evs comp s l).okT = true → (evs comp s l).temp = (comp 0 (evs comp s l).d2).2) := by
    intro l
    induction l with
    | nil => intro s h; exact h
    | cons e l ih =>
      intro s h
      show (evs comp (ev comp s e).1 l).okT = true → _
      apply ih
      cases e with
      | rawP d => exact h
      | rawT d => intro hh; simp [ev] at hh
      | getP =>
        unfold ev
        by_cases hq : s.okP = true
        · simp only [hq, if_true]; exact h
        · simp only [hq]; intro _; exact hc _ _ _
      | getT =>
        unfold ev
        by_cases hq : s.okT = true
        · simp only [hq, if_true]; exact fun _ => h hq
        · simp only [hq]; intro _; exact hc _ _ _
  have hi := inv l s (by simp [hs])
  unfold ev
  by_cases hq : (evs comp s l).okT = true
  · simp only [hq, if_true]; rw [hi hq]
  · simp only [hq]
    show some _ = some _
    rw [hc]

example : (ev (fun a b => ((a : Int) - b, b)) (evs (fun a b => ((a : Int) - b, b)) ⟨0, 0, 0, 0, false, false⟩
    [.rawP 7, .getP, .rawT 2, .getP]) .getT).2 = some 2 := by decide

/-- The pressure is not: asked between the halves, it keeps the value computed with the
temperature of the previous readout, although both raw values are there. With the data
sheet's calibration and a warmer second readout: −1 °C worth of error. -/
theorem C266_between_counterexample :
    let comp := fun a b => (ms5611 ⟨40127, 36924, 23317, 23282, 33464, 28312⟩ a b).getD (0, 0)
    let t := evs comp ⟨0, 0, 0, 0, false, false⟩ [.rawP 9085466, .rawT 8469150, .getP, .rawP 9085466, .getP, .rawT 8569150]
    (ev comp t .getP).2 ≠ some (comp t.d1 t.d2).1 ∧ (ev comp (evs comp t [.getT, .getP, .getP]) .getP).2 = some 100009 := by
  decide

/-- BMP085 clears the flag before the transaction that fetches the value: asked during
the transaction, the temperature stays that of the previous readout. -/
theorem C266_bmp085_counterexample :
    let comp := fun (a b : Nat) => ((a : Int) - b, (b : Int))
    let t := bevs comp ⟨0, 0, 0, 0, false, false⟩ [.touchT, .fetchT 5, .touchP, .fetchP 9, .getT, .touchT, .getT, .fetchT 6]
    t.d2 = 6 ∧ (bev comp t .getT).2 = some 5 := by
  decide

/-! ## C267: BMP085 in fixed point -/

/-- Words as the data sheet declares them: AC4 … AC6 unsigned. -/
def Cal.Ok (c : Cal) : Prop :=
  (-32768 ≤ c.ac1 ∧ c.ac1 ≤ 32767) ∧ (-32768 ≤ c.ac2 ∧ c.ac2 ≤ 32767) ∧ (-32768 ≤ c.ac3 ∧ c.ac3 ≤ 32767) ∧
  c.ac4 < 65536 ∧ c.ac5 < 65536 ∧ c.ac6 < 65536 ∧ (-32768 ≤ c.b1 ∧ c.b1 ≤ 32767) ∧ (-32768 ≤ c.b2 ∧ c.b2 ≤ 32767) ∧
  (-32768 ≤ c.mc ∧ c.mc ≤ 32767) ∧ (-32768 ≤ c.md ∧ c.md ≤ 32767)

/-- Data sheet, figure 3 (the quotient of X2 is C's). -/
def dsX1 (c : Cal) (ut : Nat) : Int := ((ut : Int) - c.ac6) * c.ac5 / 32768
def dsB5 (c : Cal) (ut : Nat) : Int := dsX1 c ut + Int.tdiv (c.mc * 2048) (dsX1 c ut + c.md)
def dsT (c : Cal) (ut : Nat) : Int := (dsB5 c ut + 8) / 16

def dsB3 (c : Cal) (oss : Nat) (b5 : Int) : Int :=
  ((c.ac1 * 4 + (c.b2 * ((b5 - 4000) * (b5 - 4000) / 4096) / 2048 + c.ac2 * (b5 - 4000) / 2048)) * 2 ^ oss + 2) / 4
def dsB4 (c : Cal) (b5 : Int) : Int :=
  c.ac4 * ((c.ac3 * (b5 - 4000) / 8192 + c.b1 * ((b5 - 4000) * (b5 - 4000) / 4096) / 65536 + 2) / 4 + 32768) / 32768
def dsB7 (c : Cal) (oss : Nat) (b5 : Int) (up : Nat) : Int := (up - dsB3 c oss b5) * (50000 / 2 ^ oss : Nat)
def dsP0 (c : Cal) (oss : Nat) (b5 : Int) (up : Nat) : Int :=
  if dsB7 c oss b5 up < 2147483648 then dsB7 c oss b5 up * 2 / dsB4 c b5 else dsB7 c oss b5 up / dsB4 c b5 * 2
def dsP (c : Cal) (oss : Nat) (b5 : Int) (up : Nat) : Int :=
  let p := dsP0 c oss b5 up
  p + ((p / 256) * (p / 256) * 3038 / 65536 + -7357 * p / 65536 + 3791) / 16

/-- Temperature: as in the data sheet if AC5 is below 32768, UT within 32768 of AC6,
no division by zero, and the result fits. -/
theorem C267_temperature_partial (c : Cal) (ut : Nat) (h5 : c.ac5 < 32768)
    (hu : -32768 ≤ (ut : Int) - c.ac6 ∧ (ut : Int) - c.ac6 ≤ 32767) (hd : dsX1 c ut + c.md ≠ 0)
    (ht : -32768 ≤ dsT c ut ∧ dsT c ut ≤ 32767) : bmpTemp c ut = some (dsB5 c ut, dsT c ut) := by
  unfold bmpTemp
  rw [wrap16_id hu, wrap16_id (x := (c.ac5 : Int)) (by omega)]
  have e : ((ut : Int) - c.ac6) * c.ac5 / 32768 = dsX1 c ut := rfl
  simp only [e]
  rw [if_neg hd]
  have e2 : dsX1 c ut + Int.tdiv (c.mc * 2048) (dsX1 c ut + c.md) = dsB5 c ut := rfl
  rw [e2, i32_some (by unfold dsT at ht; omega)]
  show some (dsB5 c ut, wrap16 (dsT c ut)) = _
  rw [wrap16_id ht]

/-- The example of the data sheet. -/
def example085 : Cal := ⟨408, -72, -14383, 32741, 32757, 23153, 6190, 4, -8711, 2868⟩

example : bmpTemp example085 27898 = some (2400, 150) := by decide
example : bmpPress example085 0 2400 23843 = some 69964 := by decide

/-- AC5 is converted to `int16_t`: with 32768 instead of the example's 32757 the same
reading is 29.7 °C instead of 15.0 °C. -/
theorem C267_ac5_counterexample :
    bmpTemp { example085 with ac5 := 32768 } 27898 = some (4759, 297) ∧ dsT { example085 with ac5 := 32768 } 27898 = 150 := by
  decide

/-- Without calibration (all words 0, as the constructor leaves them) the first getter
divides by zero. -/
theorem C267_zero_counterexample (ut : Nat) : bmpTemp ⟨0, 0, 0, 0, 0, 0, 0, 0, 0, 0⟩ ut = none := by
  simp [bmpTemp, wrap16]

/-- Pressure: as in the data sheet for B5 from −7585 to 15585 (−47.4 °C to 97.4 °C), a
raw value not below B3 and results before the last correction up to 215295 Pa. -/
theorem C267_pressure_partial (c : Cal) (hc : Cal.Ok c) (oss : Nat) (ho : oss ≤ 3) (b5 : Int) (up : Nat)
    (hb : -7585 ≤ b5 ∧ b5 ≤ 15585) (h4 : dsB4 c b5 ≠ 0) (h7 : 0 ≤ dsB7 c oss b5 up ∧ dsB7 c oss b5 up < 4294967296)
    (hp : dsP0 c oss b5 up ≤ 215295) : bmpPress c oss b5 up = some (dsP c oss b5 up) := by
  obtain ⟨a1, a2, a3, a4, a5, a6, k1, k2, -, -⟩ := hc
  have hB : -11585 ≤ b5 - 4000 ∧ b5 - 4000 ≤ 11585 := by omega
  have hq := mb hB hB
  have hq0 : 0 ≤ (b5 - 4000) * (b5 - 4000) := mul_self_nonneg _
  norm_num at hq
  have hw : wrap16 (b5 - 4000) = b5 - 4000 := wrap16_id (by omega)
  have hw2 : wrap16 ((b5 - 4000) * (b5 - 4000) / 4096) = (b5 - 4000) * (b5 - 4000) / 4096 := wrap16_id (by omega)
  have hs : -32768 ≤ (b5 - 4000) * (b5 - 4000) / 4096 ∧ (b5 - 4000) * (b5 - 4000) / 4096 ≤ 32768 := by omega
  have m1 := mb (a := c.b2) (A := 32768) (by omega) hs
  have m2 := mb (a := c.ac2) (A := 32768) (by omega) hB
  have m3 := mb (a := c.ac3) (A := 32768) (by omega) hB
  have m4 := mb (a := c.b1) (A := 32768) (by omega) hs
  norm_num at m1 m2 m3 m4
  have hpow : ((2 : Int) ^ oss) = 1 ∨ ((2 : Int) ^ oss) = 2 ∨ ((2 : Int) ^ oss) = 4 ∨ ((2 : Int) ^ oss) = 8 := by
    interval_cases oss <;> norm_num
  have hb3 : wrap32 ((c.ac1 * 4 + (c.b2 * ((b5 - 4000) * (b5 - 4000) / 4096) / 2048 + c.ac2 * (b5 - 4000) / 2048)) * 2 ^ oss) =
      (c.ac1 * 4 + (c.b2 * ((b5 - 4000) * (b5 - 4000) / 4096) / 2048 + c.ac2 * (b5 - 4000) / 2048)) * 2 ^ oss := by
    apply wrap32_id
    rcases hpow with h | h | h | h <;> rw [h] <;> omega
  have hx3 : ((c.ac3 * (b5 - 4000) / 8192 + c.b1 * ((b5 - 4000) * (b5 - 4000) / 4096) / 65536 + 2) / 4 + 32768) % 65536 =
      (c.ac3 * (b5 - 4000) / 8192 + c.b1 * ((b5 - 4000) * (b5 - 4000) / 4096) / 65536 + 2) / 4 + 32768 := by
    apply Int.emod_eq_of_lt <;> omega
  have hx0 : 0 ≤ (c.ac3 * (b5 - 4000) / 8192 + c.b1 * ((b5 - 4000) * (b5 - 4000) / 4096) / 65536 + 2) / 4 + 32768 := by omega
  have hb4 : 0 ≤ dsB4 c b5 := by
    unfold dsB4
    exact Int.ediv_nonneg (mul_nonneg (by omega) hx0) (by norm_num)
  have hp0 : 0 ≤ dsP0 c oss b5 up := by
    unfold dsP0
    split
    · exact Int.ediv_nonneg (by omega) hb4
    · have := Int.ediv_nonneg h7.1 hb4
      omega
  unfold bmpPress
  simp only [hw, hw2, hb3, hx3]
  have f3 : ((c.ac1 * 4 + (c.b2 * ((b5 - 4000) * (b5 - 4000) / 4096) / 2048 + c.ac2 * (b5 - 4000) / 2048)) * 2 ^ oss + 2) / 4 = dsB3 c oss b5 := rfl
  have f4 : (c.ac4 : Int) * ((c.ac3 * (b5 - 4000) / 8192 + c.b1 * ((b5 - 4000) * (b5 - 4000) / 4096) / 65536 + 2) / 4 + 32768) / 32768 = dsB4 c b5 := rfl
  have f7 : ((up : Int) - dsB3 c oss b5) * (50000 / 2 ^ oss : Nat) = dsB7 c oss b5 up := rfl
  rw [f3, f4, f7, Int.emod_eq_of_lt h7.1 h7.2, if_neg h4]
  have hin : wrap32 (if dsB7 c oss b5 up < 2147483648 then dsB7 c oss b5 up * 2 / dsB4 c b5 else dsB7 c oss b5 up / dsB4 c b5 * 2 % 4294967296) =
      dsP0 c oss b5 up := by
    have : (if dsB7 c oss b5 up < 2147483648 then dsB7 c oss b5 up * 2 / dsB4 c b5 else dsB7 c oss b5 up / dsB4 c b5 * 2 % 4294967296) = dsP0 c oss b5 up := by
      by_cases hl : dsB7 c oss b5 up < 2147483648
      · unfold dsP0; rw [if_pos hl, if_pos hl]
      · have hv : dsP0 c oss b5 up = dsB7 c oss b5 up / dsB4 c b5 * 2 := by unfold dsP0; rw [if_neg hl]
        rw [if_neg hl, ← hv]
        exact Int.emod_eq_of_lt hp0 (by omega)
    rw [this]
    exact wrap32_id (by omega)
  rw [hin]
  have hm : dsP0 c oss b5 up / 256 % 65536 = dsP0 c oss b5 up / 256 := by apply Int.emod_eq_of_lt <;> omega
  have hr : -840 ≤ dsP0 c oss b5 up / 256 ∧ dsP0 c oss b5 up / 256 ≤ 840 := by omega
  have hrr := mb hr hr
  have hr0 : 0 ≤ (dsP0 c oss b5 up / 256) * (dsP0 c oss b5 up / 256) := mul_self_nonneg _
  norm_num at hrr
  rw [hm, wrap32_id (by omega), i32_some (by omega)]
  simp only [Option.bind_eq_bind, Option.bind_some]
  rw [i32_some (by omega)]
  simp only [Option.bind_some]
  rw [i32_some (by omega)]
  rfl

/-- The example meets the hypotheses. -/
example : Cal.Ok example085 ∧ dsB4 example085 2400 ≠ 0 ∧ 0 ≤ dsB7 example085 0 2400 23843 ∧ dsB7 example085 0 2400 23843 < 4294967296 ∧
    dsP0 example085 0 2400 23843 ≤ 215295 ∧ dsP example085 0 2400 23843 = 69964 := by
  unfold Cal.Ok; decide

/-- A raw value below B3 (0, when nothing was converted) is undefined behaviour. -/
theorem C267_below_counterexample : bmpPress example085 0 2400 0 = none ∧ bmpPress example085 0 2400 300 = none := by decide

/-! ## C268: AMS5915, HCLA -/

/-- AMS5915: 0 … 1, whatever the sensor sends, without the two status bits; rising. -/
theorem C268_ams5915 (b0 b1 : BitVec 8) :
    0 ≤ ams5915 b0 b1 ∧ ams5915 b0 b1 ≤ 13107 ∧
      (1638 ≤ (b0 &&& 0x3f#8).toNat * 256 + b1.toNat → (b0 &&& 0x3f#8).toNat * 256 + b1.toNat ≤ 14745 →
        ams5915 b0 b1 = ((b0 &&& 0x3f#8).toNat * 256 + b1.toNat : Int) - 1638) := by
  unfold ams5915
  simp only
  split
  · refine ⟨by omega, by omega, fun _ _ => by omega⟩
  · split
    · refine ⟨by omega, by omega, fun _ _ => by omega⟩
    · refine ⟨by omega, by omega, fun _ _ => rfl⟩

example : ams5915 0xdf#8 0xff#8 = 6553 := by decide

/-- HCLA: from the offset on the value counted from the offset. -/
theorem C268_hclax_partial (b0 b1 : BitVec 8) (h : 0x0666 ≤ b0.toNat * 256 + b1.toNat) :
    hclax b0 b1 = (b0.toNat * 256 + b1.toNat : Int) - 0x0666 := by
  unfold hclax
  have := b0.isLt; have := b1.isLt
  apply Int.emod_eq_of_lt <;> omega

example : hclax 0x6c#8 0xcc#8 = 0x6666 := by decide

/-- One step below the offset (no pressure, with the sensor's tolerance): 2.49
times full scale. -/
theorem C268_hclax_counterexample : hclax 0x06#8 0x65#8 = 65535 ∧ 249 * 0x6666 < 100 * hclax 0x06#8 0x65#8 := by decide

end Props.Barometer
