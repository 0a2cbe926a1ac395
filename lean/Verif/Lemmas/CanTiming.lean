import Verif.Model.CanTiming
import Verif.Spec.CanTiming
import Mathlib.Tactic.Linarith
import Mathlib.Tactic.NormNum
import Mathlib.Tactic.FieldSimp
import Mathlib.Tactic.Positivity
import Mathlib.Tactic.IntervalCases

set_option autoImplicit false

/-! Error bounds for the search of bit timings. -/

namespace Modm.CanTiming

open Spec.CanTiming

section
variable {rnd : ℚ → ℚ} (hr : FloatRounding rnd)
include hr

theorem rnd_nat (n : ℕ) (h : n ≤ 2 ^ 24) : rnd n = n := by
  have := hr.nat n 0 h
  simpa using this

theorem rnd_rel {q : ℚ} (h : 1 / 2 ^ 70 ≤ q) : |rnd q - q| ≤ q / 2 ^ 23 := by
  have h1 := hr.err q
  have h0 : (0 : ℚ) ≤ q := le_trans (by positivity) h
  rw [abs_of_nonneg h0] at h1
  refine h1.trans ?_
  have : (1 : ℚ) / 2 ^ 100 ≤ q / 2 ^ 24 := by
    rw [div_le_div_iff₀ (by positivity) (by positivity)]
    have : (1 : ℚ) / 2 ^ 70 * 2 ^ 100 ≤ q * 2 ^ 100 := mul_le_mul_of_nonneg_right h (by positivity)
    norm_num at this ⊢
    linarith
  have e : q / 2 ^ 23 = q / 2 ^ 24 + q / 2 ^ 24 := by ring
  linarith

/-- the ideal prescaler without rounding -/
theorem ideal_err {clk bitrate n : ℕ} (hc : 0 < clk) (hb : 0 < bitrate) (hB : bitrate * (1 + n) < 2 ^ 31) :
    |ideal rnd clk bitrate n - clk / (bitrate * (1 + n) : ℕ)| ≤ clk / (bitrate * (1 + n) : ℕ) / 2 ^ 21 := by
  have hB0 : 0 < bitrate * (1 + n) := Nat.mul_pos hb (by omega)
  unfold ideal
  generalize bitrate * (1 + n) = d at *
  have c1 : (1 : ℚ) ≤ clk := by exact_mod_cast hc
  have d1 : (1 : ℚ) ≤ d := by exact_mod_cast hB0
  have d2 : (d : ℚ) < 2 ^ 31 := by exact_mod_cast hB
  have e1 := abs_le.1 (rnd_rel hr (q := clk) (le_trans (by norm_num) c1))
  have e2 := abs_le.1 (rnd_rel hr (q := d) (le_trans (by norm_num) d1))
  generalize rnd clk = a at *
  generalize rnd d = b at *
  have hb0 : 0 < b := by linarith
  have ha0 : 0 < a := by linarith
  have hX : (0 : ℚ) < clk / d := by positivity
  have hcd : (clk : ℚ) = clk / d * d := by field_simp
  generalize hXe : (clk : ℚ) / d = X at *
  -- the quotient
  have q1 : a / b ≤ X * (1 + 5 / 2 ^ 24) := by
    rw [div_le_iff₀ hb0]
    have : X * (1 + 5 / 2 ^ 24) * (d * (1 - 1 / 2 ^ 23)) ≤ X * (1 + 5 / 2 ^ 24) * b := by
      apply mul_le_mul_of_nonneg_left _ (by positivity)
      linarith
    refine le_trans ?_ this
    rw [show X * (1 + 5 / 2 ^ 24) * (d * (1 - 1 / 2 ^ 23)) = X * d * ((1 + 5 / 2 ^ 24) * (1 - 1 / 2 ^ 23)) by ring, ← hcd]
    have : a ≤ clk * (1 + 1 / 2 ^ 23) := by linarith
    refine this.trans (mul_le_mul_of_nonneg_left (by norm_num) (by linarith))
  have q2 : X * (1 - 5 / 2 ^ 24) ≤ a / b := by
    rw [le_div_iff₀ hb0]
    have : X * (1 - 5 / 2 ^ 24) * b ≤ X * (1 - 5 / 2 ^ 24) * (d * (1 + 1 / 2 ^ 23)) := by
      apply mul_le_mul_of_nonneg_left _ (mul_nonneg hX.le (by norm_num))
      linarith
    refine le_trans this ?_
    rw [show X * (1 - 5 / 2 ^ 24) * (d * (1 + 1 / 2 ^ 23)) = X * d * ((1 - 5 / 2 ^ 24) * (1 + 1 / 2 ^ 23)) by ring, ← hcd]
    have : clk * (1 - 1 / 2 ^ 23) ≤ a := by linarith
    refine le_trans (mul_le_mul_of_nonneg_left (by norm_num) (by linarith)) this
  have X0 : 1 / 2 ^ 31 < X := by
    rw [div_lt_iff₀ (by positivity)]
    have h3 : X * d < X * 2 ^ 31 := mul_lt_mul_of_pos_left d2 hX
    rw [← hcd] at h3
    linarith
  have e3 := abs_le.1 (rnd_rel hr (q := a / b) (by
    have : X * (1 / 2) ≤ X * (1 - 5 / 2 ^ 24) := mul_le_mul_of_nonneg_left (by norm_num) hX.le
    norm_num at this X0 q2 ⊢
    linarith))
  rw [abs_le]
  constructor <;> norm_num at q1 q2 e3 ⊢ <;> linarith

/-- rounding to the nearest integer -/
theorem roundU_near {f : ℚ} (h0 : 0 ≤ f) (h1 : f ≤ 2 ^ 20) : |(roundU rnd f : ℚ) - f| ≤ 1 / 2 + 1 / 2 ^ 23 := by
  have i0 : 0 ≤ ⌊f⌋ := Int.floor_nonneg.2 h0
  have i1 : ((⌊f⌋.toNat : ℕ) : ℚ) = ⌊f⌋ := by
    have : ((⌊f⌋.toNat : ℕ) : ℤ) = ⌊f⌋ := Int.toNat_of_nonneg i0
    exact_mod_cast this
  have f1 := Int.floor_le f
  have f2 := Int.lt_floor_add_one f
  have hle : ⌊f⌋.toNat ≤ 2 ^ 24 := by
    have : ((⌊f⌋.toNat : ℕ) : ℚ) ≤ 2 ^ 24 := by rw [i1]; norm_num at h1 ⊢; linarith
    exact_mod_cast this
  have e := hr.err (f - ⌊f⌋)
  rw [abs_of_nonneg (show 0 ≤ f - (⌊f⌋ : ℚ) by linarith)] at e
  have e := abs_le.1 e
  simp only [roundU]
  rw [rnd_nat hr _ hle, i1]
  generalize rnd (f - (⌊f⌋ : ℚ)) = x at *
  generalize (⌊f⌋ : ℚ) = y at *
  split_ifs with hif
  · push_cast
    rw [i1, abs_le]
    constructor <;> norm_num at e hif ⊢ <;> linarith
  · rw [i1, abs_le]
    constructor <;> norm_num at e hif ⊢ <;> linarith

theorem roundU_eq {f : ℚ} (k : ℕ) (h0 : 0 ≤ f) (h1 : f ≤ 2 ^ 20) (hk : |f - k| ≤ 1 / 2 - 1 / 2 ^ 22) : roundU rnd f = k := by
  have a := abs_le.1 (roundU_near hr h0 h1)
  have b := abs_le.1 hk
  have h2 : (roundU rnd f : ℚ) < k + 1 := by norm_num at a b ⊢; linarith
  have h3 : (k : ℚ) < roundU rnd f + 1 := by norm_num at a b ⊢; linarith
  have h2' : roundU rnd f < k + 1 := by exact_mod_cast h2
  have h3' : k < roundU rnd f + 1 := by exact_mod_cast h3
  omega

/-- the error of a prescaler, with and without rounding -/
theorem ratio_err {I X : ℚ} {p : ℕ} (hp : 0 < p) (hp' : p < 2 ^ 16) (hX : 1 / 2 ^ 31 ≤ X) (hX' : X ≤ 2 ^ 31) (hI : |I - X| ≤ X / 2 ^ 21) :
    |rnd (rnd p / I) - p / X| ≤ p / X / 2 ^ 19 := by
  have p1 : (1 : ℚ) ≤ p := by exact_mod_cast hp
  rw [rnd_nat hr p (by omega)]
  have hX0 : 0 < X := lt_of_lt_of_le (by positivity) hX
  have e := abs_le.1 hI
  have hI0 : 0 < I := by norm_num at e; linarith
  have hR : (0 : ℚ) < p / X := by positivity
  have hpe : (p : ℚ) = p / X * X := by field_simp
  have hR1 : 1 / 2 ^ 31 ≤ (p : ℚ) / X := by
    rw [le_div_iff₀ hX0]; norm_num at hX' ⊢; linarith
  generalize (p : ℚ) / X = R at *
  have q1 : (p : ℚ) / I ≤ R * (1 + 1 / 2 ^ 20) := by
    rw [div_le_iff₀ hI0]
    have : R * (1 + 1 / 2 ^ 20) * (X * (1 - 1 / 2 ^ 21)) ≤ R * (1 + 1 / 2 ^ 20) * I := by
      apply mul_le_mul_of_nonneg_left _ (by positivity)
      linarith
    refine le_trans ?_ this
    rw [show R * (1 + 1 / 2 ^ 20) * (X * (1 - 1 / 2 ^ 21)) = R * X * ((1 + 1 / 2 ^ 20) * (1 - 1 / 2 ^ 21)) by ring, ← hpe]
    exact le_mul_of_one_le_right (by linarith) (by norm_num)
  have q2 : R * (1 - 1 / 2 ^ 20) ≤ (p : ℚ) / I := by
    rw [le_div_iff₀ hI0]
    have : R * (1 - 1 / 2 ^ 20) * I ≤ R * (1 - 1 / 2 ^ 20) * (X * (1 + 1 / 2 ^ 21)) := by
      apply mul_le_mul_of_nonneg_left _ (mul_nonneg hR.le (by norm_num))
      linarith
    refine le_trans this ?_
    rw [show R * (1 - 1 / 2 ^ 20) * (X * (1 + 1 / 2 ^ 21)) = R * X * ((1 - 1 / 2 ^ 20) * (1 + 1 / 2 ^ 21)) by ring, ← hpe]
    exact mul_le_of_le_one_right (by linarith) (by norm_num)
  have e3 := abs_le.1 (rnd_rel hr (q := (p : ℚ) / I) (by norm_num at q2 hR1 ⊢; linarith))
  rw [abs_le]
  constructor <;> norm_num at q1 q2 e3 ⊢ <;> linarith

/-- `bs2` and the sample point for every sum -/
theorem seg_facts {n : ℕ} (h1 : 14 ≤ n) (h2 : n ≤ 20) (bs2 : ℕ) (hs : bs2 = roundU rnd (rnd (c275 * rnd (n + 1 : ℕ)))) :
    4 ≤ bs2 ∧ bs2 ≤ 6 ∧ 10 ≤ n - bs2 ∧ n - bs2 ≤ 14 ∧ 7 * (1 + n) ≤ 10 * (1 + (n - bs2)) ∧ 4 * (1 + (n - bs2)) ≤ 3 * (1 + n) := by
  rw [rnd_nat hr (n + 1) (by omega)] at hs
  have hn1 : (14 : ℚ) ≤ n := by exact_mod_cast h1
  have hn2 : (n : ℚ) ≤ 20 := by exact_mod_cast h2
  have e := abs_le.1 (rnd_rel hr (q := c275 * (n + 1 : ℕ)) (by push_cast; norm_num [c275]; linarith))
  have hf : 0 ≤ rnd (c275 * (n + 1 : ℕ)) ∧ rnd (c275 * (n + 1 : ℕ)) ≤ 2 ^ 20 := by
    push_cast at e ⊢; norm_num [c275] at e ⊢; constructor <;> linarith
  have near := abs_le.1 (roundU_near hr hf.1 hf.2)
  rw [← hs] at near
  have key : ∀ k : ℕ, |c275 * (n + 1 : ℕ) - k| ≤ 1 / 2 - 1 / 2 ^ 17 → bs2 = k := by
    intro k hk
    rw [hs]
    refine roundU_eq hr k hf.1 hf.2 ?_
    have hk := abs_le.1 hk
    rw [abs_le]
    push_cast at e hk ⊢
    norm_num [c275] at e hk ⊢
    constructor <;> linarith
  interval_cases n
  · have := key 4 (by rw [abs_le]; norm_num [c275]); omega
  · have := key 4 (by rw [abs_le]; norm_num [c275]); omega
  · have := key 5 (by rw [abs_le]; norm_num [c275]); omega
  · have := key 5 (by rw [abs_le]; norm_num [c275]); omega
  · have := key 5 (by rw [abs_le]; norm_num [c275]); omega
  · have a : (4 : ℚ) < bs2 := by push_cast at e near; norm_num [c275] at e near; linarith
    have b : (bs2 : ℚ) < 7 := by push_cast at e near; norm_num [c275] at e near; linarith
    have a' : 4 < bs2 := by exact_mod_cast a
    have b' : bs2 < 7 := by exact_mod_cast b
    omega
  · have := key 6 (by rw [abs_le]; norm_num [c275]); omega

end

/-- What the loop finds. -/
theorem fold_facts (rnd : ℚ → ℚ) (clk bitrate w : ℕ) (l : List ℕ) (b : Best) :
    ((l.foldl (pass rnd clk bitrate w) b = b) ∨ ∃ n ∈ l, roundU rnd (ideal rnd clk bitrate n) < 2 ^ w - 1 ∧
      l.foldl (pass rnd clk bitrate w) b = ⟨roundU rnd (ideal rnd clk bitrate n) % 2 ^ 16, error rnd clk bitrate n, n⟩) ∧
    (l.foldl (pass rnd clk bitrate w) b).error ≤ b.error ∧
    ∀ n ∈ l, roundU rnd (ideal rnd clk bitrate n) < 2 ^ w - 1 → (l.foldl (pass rnd clk bitrate w) b).error ≤ error rnd clk bitrate n := by
  induction l generalizing b with
  | nil => exact ⟨.inl rfl, le_rfl, fun _ h => by cases h⟩
  | cons m l ih =>
    simp only [List.foldl_cons]
    obtain ⟨h1, h2, h3⟩ := ih (pass rnd clk bitrate w b m)
    have hp : (pass rnd clk bitrate w b m).error ≤ b.error := by
      simp only [pass]; split_ifs with hif
      · exact hif.2
      · exact le_rfl
    refine ⟨?_, h2.trans hp, ?_⟩
    · rcases h1 with h1 | ⟨n, hn, h4, h5⟩
      · rw [h1]
        by_cases hif : roundU rnd (ideal rnd clk bitrate m) < 2 ^ w - 1 ∧ error rnd clk bitrate m ≤ b.error
        · exact .inr ⟨m, List.mem_cons_self, hif.1, by simp only [pass, if_pos hif]⟩
        · exact .inl (by simp only [pass, if_neg hif])
      · exact .inr ⟨n, List.mem_cons_of_mem _ hn, h4, h5⟩
    · intro n hn h4
      rcases List.mem_cons.1 hn with rfl | hn
      · refine h2.trans ?_
        simp only [pass]; split_ifs with hif
        · exact le_rfl
        · exact le_of_lt (not_le.1 fun hc => hif ⟨h4, hc⟩)
      · exact h3 n hn h4

end Modm.CanTiming
