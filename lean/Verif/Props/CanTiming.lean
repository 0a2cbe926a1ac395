import Verif.Lemmas.CanTiming

set_option autoImplicit false

/-! Properties C164 and C165: bit timings of CAN controllers. -/

namespace Props.CanTiming

open Modm.CanTiming Spec.CanTiming

/-- the hypothesis on rounding can be met -/
theorem rounding_id : FloatRounding id := ⟨fun _ _ h => h, fun _ _ _ => rfl, fun q => by simp; positivity⟩

private theorem config_facts {rnd : ℚ → ℚ} (hr : FloatRounding rnd) {clk bitrate w w1 w2 : ℕ} {tol : ℚ} (hw : w ≤ 16)
    (h : compiles w w1 w2 tol (bestConfig rnd clk bitrate w)) :
    ∃ n, 14 ≤ n ∧ n ≤ 20 ∧ (bestConfig rnd clk bitrate w).bs1 + (bestConfig rnd clk bitrate w).bs2 = n ∧
      4 ≤ (bestConfig rnd clk bitrate w).bs2 ∧ (bestConfig rnd clk bitrate w).bs2 ≤ 6 ∧ 10 ≤ (bestConfig rnd clk bitrate w).bs1 ∧ (bestConfig rnd clk bitrate w).bs1 ≤ 14 ∧
      7 * (1 + n) ≤ 10 * (1 + (bestConfig rnd clk bitrate w).bs1) ∧ 4 * (1 + (bestConfig rnd clk bitrate w).bs1) ≤ 3 * (1 + n) ∧
      (bestConfig rnd clk bitrate w).prescaler = roundU rnd (ideal rnd clk bitrate n) ∧ (bestConfig rnd clk bitrate w).prescaler < 2 ^ w - 1 ∧
      0 < (bestConfig rnd clk bitrate w).prescaler ∧ (bestConfig rnd clk bitrate w).error = error rnd clk bitrate n := by
  obtain ⟨-, h2, -⟩ := h
  have hp0 : 0 < (bestConfig rnd clk bitrate w).prescaler := by
    rcases Nat.eq_zero_or_pos (bestConfig rnd clk bitrate w).prescaler with h0 | h0
    · rw [getPrescaler, h0] at h2; simp at h2
    · exact h0
  have hf := (fold_facts rnd clk bitrate w [14, 15, 16, 17, 18, 19, 20] ⟨0, 10000, 0⟩).1
  rcases hf with hf | ⟨n, hn, hlt, hf⟩
  · exfalso
    have hb : best rnd clk bitrate w = ⟨0, 10000, 0⟩ := hf
    simp [bestConfig, hb] at hp0
  · have hb : best rnd clk bitrate w = ⟨roundU rnd (ideal rnd clk bitrate n) % 2 ^ 16, error rnd clk bitrate n, n⟩ := hf
    have hn14 : 14 ≤ n ∧ n ≤ 20 := by
      simp only [List.mem_cons, List.not_mem_nil, or_false] at hn
      omega
    obtain ⟨s1, s2, s3, s4, s5, s6⟩ := seg_facts hr hn14.1 hn14.2 _ rfl
    have hw' : 2 ^ w ≤ 2 ^ 16 := Nat.pow_le_pow_right (by norm_num) hw
    have hmod : roundU rnd (ideal rnd clk bitrate n) % 2 ^ 16 = roundU rnd (ideal rnd clk bitrate n) := Nat.mod_eq_of_lt (by omega)
    refine ⟨n, hn14.1, hn14.2, ?_⟩
    have hcfg : bestConfig rnd clk bitrate w = ⟨n - roundU rnd (rnd (c275 * rnd (n + 1 : ℕ))), roundU rnd (rnd (c275 * rnd (n + 1 : ℕ))), roundU rnd (ideal rnd clk bitrate n),
        error rnd clk bitrate n⟩ := by
      simp only [bestConfig, hb, hmod]
    rw [hcfg] at hp0 ⊢
    simp only
    generalize roundU rnd (rnd (c275 * rnd (n + 1 : ℕ))) = bs2 at *
    refine ⟨by omega, s1, s2, s3, s4, s5, s6, trivial, hlt, hp0, trivial⟩

private theorem or_fields (a b c i j : ℕ) (hb : b < 2 ^ i) (hc : c < 2 ^ j) :
    2 ^ (i + j) * a ||| 2 ^ j * b ||| c = 2 ^ (i + j) * a + 2 ^ j * b + c := by
  have h1 : 2 ^ j * b + c < 2 ^ (i + j) := by
    have : 2 ^ j * (b + 1) ≤ 2 ^ j * 2 ^ i := Nat.mul_le_mul_left _ hb
    rw [Nat.pow_add, Nat.mul_comm (2 ^ i)]
    rw [Nat.mul_add, Nat.mul_one] at this
    omega
  rw [Nat.or_assoc, ← Nat.two_pow_add_eq_or_of_lt hc, ← Nat.two_pow_add_eq_or_of_lt h1, Nat.add_assoc]

private theorem btr_decode {c : Config} (h1 : 10 ≤ c.bs1) (h2 : c.bs1 ≤ 14) (h3 : 4 ≤ c.bs2) (h4 : c.bs2 ≤ 6) (h5 : 0 < getPrescaler c) :
    bxCan (btr c) = ⟨getPrescaler c, c.bs1, c.bs2⟩ := by
  have h6 : getPrescaler c < 2 ^ 8 := Nat.mod_lt _ (by norm_num)
  have e : (btr c).toNat = 2 ^ 20 * (c.bs2 - 1) + 2 ^ 16 * (c.bs1 - 1) + (getPrescaler c - 1) := by
    rw [← or_fields _ _ _ 4 16 (by omega) (by omega)]
    simp only [btr, BitVec.toNat_or, BitVec.toNat_shiftLeft, BitVec.toNat_ofNat, Nat.shiftLeft_eq]
    rw [Nat.mod_eq_of_lt (a := c.bs2 - 1) (by omega), Nat.mod_eq_of_lt (a := c.bs1 - 1) (by omega), Nat.mod_eq_of_lt (a := getPrescaler c - 1) (by omega),
      Nat.mod_eq_of_lt (by omega), Nat.mod_eq_of_lt (by omega), Nat.mul_comm (c.bs2 - 1), Nat.mul_comm (c.bs1 - 1)]
  simp only [bxCan, field, e, BitTime.mk.injEq]
  omega

private theorem nbtp_decode {c : Config} (h1 : 10 ≤ c.bs1) (h2 : c.bs1 ≤ 14) (h3 : 4 ≤ c.bs2) (h4 : c.bs2 ≤ 6) (h5 : 0 < c.prescaler) (h6 : c.prescaler ≤ 2 ^ 9) :
    fdcanNominal (nbtp c) = ⟨c.prescaler, c.bs1, c.bs2⟩ := by
  have e : (nbtp c).toNat = 2 ^ 16 * (c.prescaler - 1) + 2 ^ 8 * (c.bs1 - 1) + (c.bs2 - 1) := by
    rw [← or_fields _ _ _ 8 8 (by omega) (by omega)]
    simp only [nbtp, BitVec.toNat_or, BitVec.toNat_shiftLeft, BitVec.toNat_ofNat, Nat.shiftLeft_eq]
    rw [Nat.mod_eq_of_lt (a := c.bs2 - 1) (by omega), Nat.mod_eq_of_lt (a := c.bs1 - 1) (by omega), Nat.mod_eq_of_lt (a := c.prescaler - 1) (by omega),
      Nat.mod_eq_of_lt (by omega), Nat.mod_eq_of_lt (by omega), Nat.or_assoc, Nat.or_comm, Nat.or_comm (_ * 2 ^ 8), Nat.mul_comm (c.prescaler - 1), Nat.mul_comm (c.bs1 - 1)]
  simp only [fdcanNominal, field, e, BitTime.mk.injEq]
  omega

private theorem dbtp_decode {c : Config} (h1 : 10 ≤ c.bs1) (h2 : c.bs1 ≤ 14) (h3 : 4 ≤ c.bs2) (h4 : c.bs2 ≤ 6) (h5 : 0 < c.prescaler) (h6 : c.prescaler ≤ 2 ^ 5) :
    fdcanData (dbtp c) = ⟨c.prescaler, c.bs1, c.bs2⟩ := by
  have e : (dbtp c).toNat = 2 ^ 16 * (c.prescaler - 1) + 2 ^ 8 * (c.bs1 - 1) + 2 ^ 4 * (c.bs2 - 1) := by
    rw [← or_fields _ _ _ 8 8 (by omega) (by omega)]
    simp only [dbtp, BitVec.toNat_or, BitVec.toNat_shiftLeft, BitVec.toNat_ofNat, Nat.shiftLeft_eq]
    rw [Nat.mod_eq_of_lt (a := c.bs2 - 1) (by omega), Nat.mod_eq_of_lt (a := c.bs1 - 1) (by omega), Nat.mod_eq_of_lt (a := c.prescaler - 1) (by omega),
      Nat.mod_eq_of_lt (by omega), Nat.mod_eq_of_lt (by omega), Nat.mod_eq_of_lt (by omega), Nat.or_assoc, Nat.or_comm, Nat.or_comm (_ * 2 ^ 8), Nat.mul_comm (c.prescaler - 1),
      Nat.mul_comm (c.bs1 - 1), Nat.mul_comm (c.bs2 - 1)]
  simp only [fdcanData, field, e, BitTime.mk.injEq]
  omega

private theorem quotient {clk bitrate n : ℕ} (hc : 0 < clk) (hc' : clk < 2 ^ 31) (hb : 0 < bitrate) (hB : bitrate * (1 + n) < 2 ^ 31) :
    1 / 2 ^ 31 ≤ (clk : ℚ) / (bitrate * (1 + n) : ℕ) ∧ (clk : ℚ) / (bitrate * (1 + n) : ℕ) ≤ 2 ^ 31 := by
  have hB0 : 0 < bitrate * (1 + n) := Nat.mul_pos hb (by omega)
  generalize bitrate * (1 + n) = d at *
  have c1 : (1 : ℚ) ≤ clk := by exact_mod_cast hc
  have d1 : (1 : ℚ) ≤ d := by exact_mod_cast hB0
  have c2 : (clk : ℚ) < 2 ^ 31 := by exact_mod_cast hc'
  have d2 : (d : ℚ) < 2 ^ 31 := by exact_mod_cast hB
  constructor
  · rw [le_div_iff₀ (by linarith)]; linarith
  · rw [div_le_iff₀ (by linarith)]; linarith

private theorem rate_err {rnd : ℚ → ℚ} (hr : FloatRounding rnd) {clk bitrate n : ℕ} (hc : 0 < clk) (hc' : clk < 2 ^ 31) (hb : 0 < bitrate) (hB : bitrate * (1 + n) < 2 ^ 31)
    (hp : 0 < roundU rnd (ideal rnd clk bitrate n)) (hp' : roundU rnd (ideal rnd clk bitrate n) < 2 ^ 16) :
    ∃ y z R : ℚ, R = roundU rnd (ideal rnd clk bitrate n) / (clk / (bitrate * (1 + n) : ℕ)) ∧ 0 ≤ y ∧ z = |1 - R| ∧ R ≤ 1 + z ∧
      y ≤ error rnd clk bitrate n + y / 2 ^ 24 + 1 / 2 ^ 100 ∧ error rnd clk bitrate n ≤ y + y / 2 ^ 24 + 1 / 2 ^ 100 ∧ z ≤ y + R / 2 ^ 19 ∧ y ≤ z + R / 2 ^ 19 := by
  obtain ⟨hX, hX'⟩ := quotient hc hc' hb hB
  have hI := ideal_err hr hc hb hB
  have h1 := ratio_err hr hp hp' hX hX' hI
  unfold error
  generalize rnd (rnd (roundU rnd (ideal rnd clk bitrate n)) / ideal rnd clk bitrate n) = r at *
  generalize (roundU rnd (ideal rnd clk bitrate n) : ℚ) / (clk / (bitrate * (1 + n) : ℕ)) = R at *
  have h2 := hr.err (1 - r)
  generalize rnd (1 - r) = e at *
  refine ⟨|1 - r|, |1 - R|, R, rfl, abs_nonneg _, rfl, ?_, ?_, ?_, ?_, ?_⟩
  · have := neg_abs_le (1 - R); linarith
  · have := abs_sub_abs_le_abs_sub (1 - r) e
    rw [abs_sub_comm (1 - r) e] at this
    linarith
  · have := abs_sub_abs_le_abs_sub e (1 - r)
    linarith
  · have := abs_sub_abs_le_abs_sub (1 - R) (1 - r)
    rw [show 1 - R - (1 - r) = r - R by ring] at this
    linarith
  · have := abs_sub_abs_le_abs_sub (1 - r) (1 - R)
    rw [show 1 - r - (1 - R) = -(r - R) by ring, abs_neg] at this
    linarith

private theorem bitrate_err {rnd : ℚ → ℚ} (hr : FloatRounding rnd) {clk bitrate w w1 w2 : ℕ} {tol : ℚ} (hc : 0 < clk) (hc' : clk < 2 ^ 31) (hb : 0 < bitrate)
    (hB : bitrate * 21 < 2 ^ 31) (hw : w ≤ 16) (htol : tol ≤ 1) (h : compiles w w1 w2 tol (bestConfig rnd clk bitrate w)) :
    |(clk : ℚ) - bitrate * ((bestConfig rnd clk bitrate w).prescaler * (1 + (bestConfig rnd clk bitrate w).bs1 + (bestConfig rnd clk bitrate w).bs2) : ℕ)| ≤ (tol + 1 / 2 ^ 15) * clk := by
  obtain ⟨n, n1, n2, n3, -, -, -, -, -, -, n4, n5, n6, n7⟩ := config_facts hr hw h
  have htol' := h.1
  rw [n7] at htol'
  have hn : bitrate * (1 + n) < 2 ^ 31 := by
    have : bitrate * (1 + n) ≤ bitrate * 21 := Nat.mul_le_mul_left _ (by omega)
    omega
  have hw' : 2 ^ w ≤ 2 ^ 16 := Nat.pow_le_pow_right (by norm_num) hw
  obtain ⟨y, z, R, hR, y0, hz, a1, a2, a3, a4, a5⟩ := rate_err hr hc hc' hb hn (by omega) (by omega)
  rw [Nat.add_assoc, n3, n4]
  have c0 : (0 : ℚ) < clk := by exact_mod_cast hc
  have hBn : (0 : ℚ) < (bitrate * (1 + n) : ℕ) := by exact_mod_cast Nat.mul_pos hb (by omega)
  have hRe : (clk : ℚ) - bitrate * (roundU rnd (ideal rnd clk bitrate n) * (1 + n) : ℕ) = (1 - R) * clk := by
    rw [hR, div_div_eq_mul_div, sub_mul, one_mul, div_mul_cancel₀ _ c0.ne']
    push_cast
    ring
  rw [hRe, abs_mul, abs_of_pos c0, ← hz]
  apply mul_le_mul_of_nonneg_right _ c0.le
  linarith

/-- C164: if `initialize` of the bxCAN compiles and the prescaler fits in eight bits, the time of a bit as set in `BTR` is right within the tolerance (and three thousandths of a percent for the floats), for every clock and
every bit rate. -/
theorem C164_bxcan_partial {rnd : ℚ → ℚ} (hr : FloatRounding rnd) {clk bitrate : ℕ} {tol : ℚ} (hc : 0 < clk) (hc' : clk < 2 ^ 31) (hb : 0 < bitrate)
    (hB : bitrate * 21 < 2 ^ 31) (htol : tol ≤ 1) (h : compiles 10 4 3 tol (bestConfig rnd clk bitrate 10)) (hp : (bestConfig rnd clk bitrate 10).prescaler < 256) :
    |(clk : ℚ) - bitrate * (bxCan (btr (bestConfig rnd clk bitrate 10))).clocks| ≤ (tol + 1 / 2 ^ 15) * clk := by
  obtain ⟨n, -, -, -, n4, n5, n6, n7, -⟩ := config_facts hr (by norm_num) h
  rw [btr_decode n6 n7 n4 n5 h.2.1, BitTime.clocks, getPrescaler, Nat.mod_eq_of_lt (show _ < 2 ^ 8 from hp)]
  exact bitrate_err hr hc hc' hb hB (by norm_num) htol h

/-- C164: likewise the FDCAN and the M_CAN, for `NBTP`, without the restriction. -/
theorem C164_fdcan {rnd : ℚ → ℚ} (hr : FloatRounding rnd) {clk bitrate : ℕ} {tol : ℚ} (hc : 0 < clk) (hc' : clk < 2 ^ 31) (hb : 0 < bitrate)
    (hB : bitrate * 21 < 2 ^ 31) (htol : tol ≤ 1) (h : compiles 9 8 7 tol (bestConfig rnd clk bitrate 9)) :
    |(clk : ℚ) - bitrate * (fdcanNominal (nbtp (bestConfig rnd clk bitrate 9))).clocks| ≤ (tol + 1 / 2 ^ 15) * clk := by
  obtain ⟨n, -, -, -, n4, n5, n6, n7, -, -, -, n8, n9, -⟩ := config_facts hr (by norm_num) h
  rw [nbtp_decode n6 n7 n4 n5 n9 (by omega), BitTime.clocks]
  exact bitrate_err hr hc hc' hb hB (by norm_num) htol h

/-- C164: and the fast bits of the FDCAN and the M_CAN, for `DBTP`. -/
theorem C164_fdcan_data {rnd : ℚ → ℚ} (hr : FloatRounding rnd) {clk bitrate : ℕ} {tol : ℚ} (hc : 0 < clk) (hc' : clk < 2 ^ 31) (hb : 0 < bitrate)
    (hB : bitrate * 21 < 2 ^ 31) (htol : tol ≤ 1) (h : compiles 5 5 4 tol (bestConfig rnd clk bitrate 5)) :
    |(clk : ℚ) - bitrate * (fdcanData (dbtp (bestConfig rnd clk bitrate 5))).clocks| ≤ (tol + 1 / 2 ^ 15) * clk := by
  obtain ⟨n, -, -, -, n4, n5, n6, n7, -, -, -, n8, n9, -⟩ := config_facts hr (by norm_num) h
  rw [dbtp_decode n6 n7 n4 n5 n9 (by omega), BitTime.clocks]
  exact bitrate_err hr hc hc' hb hB (by norm_num) htol h

/-- C164: the sample point is between 70 and 75 percent of the bit, for each of them. -/
theorem C164_sample {rnd : ℚ → ℚ} (hr : FloatRounding rnd) {clk bitrate w w1 w2 : ℕ} {tol : ℚ} (hw : w ≤ 10) (h : compiles w w1 w2 tol (bestConfig rnd clk bitrate w)) :
    (7 * (1 + (bxCan (btr (bestConfig rnd clk bitrate w))).seg1 + (bxCan (btr (bestConfig rnd clk bitrate w))).seg2) ≤ 10 * (1 + (bxCan (btr (bestConfig rnd clk bitrate w))).seg1) ∧
      4 * (1 + (bxCan (btr (bestConfig rnd clk bitrate w))).seg1) ≤ 3 * (1 + (bxCan (btr (bestConfig rnd clk bitrate w))).seg1 + (bxCan (btr (bestConfig rnd clk bitrate w))).seg2)) ∧
    (w ≤ 9 → fdcanNominal (nbtp (bestConfig rnd clk bitrate w)) = ⟨(bestConfig rnd clk bitrate w).prescaler, (bxCan (btr (bestConfig rnd clk bitrate w))).seg1,
      (bxCan (btr (bestConfig rnd clk bitrate w))).seg2⟩) ∧
    (w ≤ 5 → fdcanData (dbtp (bestConfig rnd clk bitrate w)) = ⟨(bestConfig rnd clk bitrate w).prescaler, (bxCan (btr (bestConfig rnd clk bitrate w))).seg1,
      (bxCan (btr (bestConfig rnd clk bitrate w))).seg2⟩) := by
  obtain ⟨n, -, -, n3, n4, n5, n6, n7, n8, n9, -, n10, n11, -⟩ := config_facts hr (by omega) h
  have hpow : ∀ v, w ≤ v → (bestConfig rnd clk bitrate w).prescaler ≤ 2 ^ v := fun v hv => by
    have := Nat.pow_le_pow_right (show 0 < 2 by norm_num) hv
    omega
  rw [btr_decode n6 n7 n4 n5 h.2.1]
  refine ⟨⟨by simp only; omega, by simp only; omega⟩, fun hw => ?_, fun hw => ?_⟩
  · exact nbtp_decode n6 n7 n4 n5 n11 (hpow 9 hw)
  · exact dbtp_decode n6 n7 n4 n5 n11 (hpow 5 hw)

/-- C164: no other number of quanta in a bit and no other prescaler gives a bit rate closer to that asked for, except by the error of the floats, as long as the prescaler is not one of the two largest. -/
theorem C164_best_partial {rnd : ℚ → ℚ} (hr : FloatRounding rnd) {clk bitrate w w1 w2 : ℕ} {tol : ℚ} (hc : 0 < clk) (hc' : clk < 2 ^ 31) (hb : 0 < bitrate)
    (hB : bitrate * 21 < 2 ^ 31) (hw0 : 2 ≤ w) (hw : w ≤ 10) (htol : tol ≤ 1) (h : compiles w w1 w2 tol (bestConfig rnd clk bitrate w)) (n p : ℕ) (h1 : 14 ≤ n) (h2 : n ≤ 20) (hp : 0 < p)
    (hfit : clk ≤ (2 ^ w - 2) * (bitrate * (1 + n))) :
    |(clk : ℚ) - bitrate * ((bestConfig rnd clk bitrate w).prescaler * (1 + (bestConfig rnd clk bitrate w).bs1 + (bestConfig rnd clk bitrate w).bs2) : ℕ)| ≤
      |(clk : ℚ) - bitrate * (p * (1 + n) : ℕ)| + clk / 2 ^ 13 := by
  have c0 : (0 : ℚ) < clk := by exact_mod_cast hc
  have hn : bitrate * (1 + n) < 2 ^ 31 := by
    have : bitrate * (1 + n) ≤ bitrate * 21 := Nat.mul_le_mul_left _ (by omega)
    omega
  have hBn : (0 : ℚ) < (bitrate * (1 + n) : ℕ) := by exact_mod_cast Nat.mul_pos hb (by omega)
  obtain ⟨hX, hX'⟩ := quotient hc hc' hb hn
  have hI := abs_le.1 (ideal_err hr hc hb hn)
  have hw' : 2 ^ w ≤ 2 ^ 10 := Nat.pow_le_pow_right (by norm_num) hw
  have hw2 : 2 ^ 2 ≤ 2 ^ w := Nat.pow_le_pow_right (by norm_num) hw0
  have hXfit : (clk : ℚ) / (bitrate * (1 + n) : ℕ) ≤ (2 ^ w - 2 : ℕ) := by
    rw [div_le_iff₀ hBn]; exact_mod_cast hfit
  have hM : ((2 ^ w - 2 : ℕ) : ℚ) ≤ 1022 := by exact_mod_cast (by omega : 2 ^ w - 2 ≤ 1022)
  have hX0 : 0 < (clk : ℚ) / (bitrate * (1 + n) : ℕ) := lt_of_lt_of_le (by positivity) hX
  -- the rounded prescaler for n
  have hI0 : 0 ≤ ideal rnd clk bitrate n := by linarith
  have hI1 : ideal rnd clk bitrate n ≤ 2 ^ 20 := by linarith
  have near := abs_le.1 (roundU_near hr hI0 hI1)
  have hq : roundU rnd (ideal rnd clk bitrate n) < 2 ^ w - 1 := by
    have : (roundU rnd (ideal rnd clk bitrate n) : ℚ) < (2 ^ w - 2 : ℕ) + 1 := by linarith
    have : roundU rnd (ideal rnd clk bitrate n) < (2 ^ w - 2) + 1 := by exact_mod_cast this
    omega
  have hbest : (bestConfig rnd clk bitrate w).error ≤ error rnd clk bitrate n := by
    have := (fold_facts rnd clk bitrate w [14, 15, 16, 17, 18, 19, 20] ⟨0, 10000, 0⟩).2.2 n (by
      simp only [List.mem_cons, List.not_mem_nil, or_false]; omega) hq
    exact this
  -- the chosen one
  have hchosen : |(clk : ℚ) - bitrate * ((bestConfig rnd clk bitrate w).prescaler * (1 + (bestConfig rnd clk bitrate w).bs1 + (bestConfig rnd clk bitrate w).bs2) : ℕ)| ≤
      ((bestConfig rnd clk bitrate w).error + 1 / 2 ^ 15) * clk :=
    bitrate_err hr hc hc' hb hB (by omega) (h.1.trans htol) ⟨le_rfl, h.2⟩
  refine hchosen.trans ?_
  -- the other one
  have hother : (clk : ℚ) - bitrate * (p * (1 + n) : ℕ) = (1 - p / (clk / (bitrate * (1 + n) : ℕ))) * clk := by
    rw [div_div_eq_mul_div, sub_mul, one_mul, div_mul_cancel₀ _ c0.ne']
    push_cast
    ring
  rw [hother, abs_mul, abs_of_pos c0, show (clk : ℚ) / 2 ^ 13 = 1 / 2 ^ 13 * clk by ring, ← add_mul]
  apply mul_le_mul_of_nonneg_right _ c0.le
  have hp1 : (1 : ℚ) ≤ p := by exact_mod_cast hp
  by_cases hz : roundU rnd (ideal rnd clk bitrate n) = 0
  · -- no prescaler: the error is one
    have herr : error rnd clk bitrate n = 1 := by
      have r0 := rnd_nat hr 0 (by norm_num)
      have r1 := rnd_nat hr 1 (by norm_num)
      push_cast at r0 r1
      simp only [error, hz, Nat.cast_zero, r0, zero_div, sub_zero, r1, abs_one]
    have hsmall : (clk : ℚ) / (bitrate * (1 + n) : ℕ) ≤ 1 / 2 + 1 / 2 ^ 19 := by
      rw [hz] at near
      linarith
    have hbig : 1 ≤ |1 - (p : ℚ) / (clk / (bitrate * (1 + n) : ℕ))| + 1 / 2 ^ 14 := by
      have h3 : 2 - 1 / 2 ^ 14 ≤ (p : ℚ) / (clk / (bitrate * (1 + n) : ℕ)) := by
        rw [le_div_iff₀ hX0]
        linarith
      have := neg_abs_le (1 - (p : ℚ) / (clk / (bitrate * (1 + n) : ℕ)))
      linarith
    rw [herr] at hbest
    linarith
  · have hlarge : 1 / 4 ≤ (clk : ℚ) / (bitrate * (1 + n) : ℕ) := by
      have : (1 : ℚ) ≤ roundU rnd (ideal rnd clk bitrate n) := by exact_mod_cast Nat.pos_of_ne_zero hz
      linarith
    obtain ⟨y, z, R, hR, y0, hzR, a1, a2, a3, a4, a5⟩ := rate_err hr hc hc' hb hn (Nat.pos_of_ne_zero hz) (by omega)
    generalize hq' : roundU rnd (ideal rnd clk bitrate n) = q at *
    generalize (clk : ℚ) / (bitrate * (1 + n) : ℕ) = X at *
    generalize ideal rnd clk bitrate n = I at *
    -- q is nearest to I up to the rounding
    have hnear : |(q : ℚ) - X| ≤ |(p : ℚ) - X| + 1 / 2 ^ 22 + X / 2 ^ 20 := by
      by_cases hpq : p = q
      · rw [hpq]
        have : 0 ≤ X / 2 ^ 20 := by positivity
        linarith
      · have hd : (1 : ℚ) ≤ |(p : ℚ) - q| := by
          rcases lt_or_gt_of_ne hpq with hlt | hgt
          · have : (p : ℚ) + 1 ≤ q := by exact_mod_cast hlt
            rw [abs_of_nonpos (by linarith)]; linarith
          · have : (q : ℚ) + 1 ≤ p := by exact_mod_cast hgt
            rw [abs_of_nonneg (by linarith)]; linarith
        have t1 := abs_sub_le (p : ℚ) I q
        have t2 := abs_sub_le (p : ℚ) X I
        have t3 := abs_sub_le (q : ℚ) I X
        have n1 : |(q : ℚ) - I| ≤ 1 / 2 + 1 / 2 ^ 23 := abs_le.2 near
        have n2 : |I - X| ≤ X / 2 ^ 21 := abs_le.2 hI
        rw [abs_sub_comm I (q : ℚ)] at t1
        rw [abs_sub_comm X I] at t2
        linarith
    have hdiv : z ≤ |1 - (p : ℚ) / X| + 1 / 2 ^ 19 := by
      have e1 : z * X = |(q : ℚ) - X| := by
        rw [hzR, hR, ← abs_of_pos hX0, ← abs_mul, abs_of_pos hX0, sub_mul, one_mul, div_mul_cancel₀ _ hX0.ne', abs_sub_comm]
      have e2 : |1 - (p : ℚ) / X| * X = |(p : ℚ) - X| := by
        conv_lhs => rw [← abs_of_pos hX0]
        rw [← abs_mul, abs_of_pos hX0, sub_mul, one_mul, div_mul_cancel₀ _ hX0.ne', abs_sub_comm]
      apply le_of_mul_le_mul_right _ hX0
      rw [add_mul, e1, e2]
      linarith
    have hRz : R ≤ 5 + 1 := by
      rw [hR, div_le_iff₀ hX0]
      linarith
    have hz6 : z ≤ 5 + 1 := by
      rw [hzR, abs_le]
      have : 0 ≤ R := by rw [hR]; positivity
      constructor <;> linarith
    linarith

/-- A few clocks and bit rates, with the values of the unit test; `compiles` holds with tolerance zero. -/
example : bestConfig id 36000000 125000 10 = ⟨12, 5, 16, 0⟩ ∧ bestConfig id 32000000 1000000 10 = ⟨11, 4, 2, 0⟩ ∧ compiles 10 4 3 0 (bestConfig id 36000000 125000 10) ∧
    compiles 9 8 7 0 (bestConfig id 80000000 500000 9) ∧ compiles 5 5 4 0 (bestConfig id 80000000 2000000 5) := by decide +kernel

/-- C164: `getPrescaler` returns eight bits of ten: at 42 MHz and 5 kbit/s all assertions hold with tolerance zero, but the bit of the bxCAN has 3024 clocks instead of 8400: 13.9 kbit/s. -/
theorem C164_truncated_counterexample {rnd : ℚ → ℚ} (hr : FloatRounding rnd) : compiles 10 4 3 0 (bestConfig rnd 42000000 5000 10) ∧
    (bxCan (btr (bestConfig rnd 42000000 5000 10))).clocks = 3024 ∧ 5000 * 8400 = 42000000 := by
  have hI : ideal rnd 42000000 5000 20 = 400 := by
    have r1 := hr.nat 328125 7 (by norm_num)
    have r2 := rnd_nat hr 105000 (by norm_num)
    have r3 := rnd_nat hr 400 (by norm_num)
    norm_num at r1 r2 r3
    simp only [ideal]
    norm_num
    rw [r1, r2]
    norm_num
    exact r3
  have hR : roundU rnd 400 = 400 := roundU_eq hr 400 (by norm_num) (by norm_num) (by norm_num)
  have hE : error rnd 42000000 5000 20 = 0 := by
    have r0 := rnd_nat hr 0 (by norm_num)
    have r1 := rnd_nat hr 1 (by norm_num)
    have r3 := rnd_nat hr 400 (by norm_num)
    norm_num at r0 r1 r3
    simp only [error, hI, hR]
    norm_num [r0, r1, r3]
  have h0 : 0 ≤ ([14, 15, 16, 17, 18, 19].foldl (pass rnd 42000000 5000 10) ⟨0, 10000, 0⟩).error := by
    rcases (fold_facts rnd 42000000 5000 10 [14, 15, 16, 17, 18, 19] ⟨0, 10000, 0⟩).1 with h | ⟨n, -, -, h⟩
    · rw [h]; norm_num
    · rw [h]; simp only [error]; exact abs_nonneg _
  have hb : best rnd 42000000 5000 10 = ⟨400, 0, 20⟩ := by
    have : best rnd 42000000 5000 10 = pass rnd 42000000 5000 10 ([14, 15, 16, 17, 18, 19].foldl (pass rnd 42000000 5000 10) ⟨0, 10000, 0⟩) 20 := rfl
    rw [this, pass, if_pos ⟨by rw [hI, hR]; norm_num, by rw [hE]; exact h0⟩, hI, hR, hE]
    rfl
  have hs := seg_facts hr (n := 20) (by norm_num) (by norm_num) _ rfl
  have hcfg : ∃ bs2, 4 ≤ bs2 ∧ bs2 ≤ 6 ∧ bestConfig rnd 42000000 5000 10 = ⟨20 - bs2, bs2, 400, 0⟩ :=
    ⟨_, hs.1, hs.2.1, by simp only [bestConfig, hb]⟩
  obtain ⟨bs2, b1, b2, hcfg⟩ := hcfg
  rw [hcfg]
  refine ⟨⟨le_rfl, by norm_num [getPrescaler], by norm_num [getPrescaler], by simp only; omega, by simp only; omega⟩, ?_, rfl⟩
  have : bs2 = 4 ∨ bs2 = 5 ∨ bs2 = 6 := by omega
  rcases this with rfl | rfl | rfl <;> rfl

/-! ### MCP2515 -/

private theorem cnf1_decode : ∀ (s : Fin 4) (b : Fin 64),
    field ((BitVec.ofNat 8 s.1 <<< 6) ||| (BitVec.ofNat 8 b.1 &&& 0x3f#8)) 0 6 = b.1 ∧ field ((BitVec.ofNat 8 s.1 <<< 6) ||| (BitVec.ofNat 8 b.1 &&& 0x3f#8)) 6 2 = s.1 := by decide +kernel

private theorem cnf2_decode : ∀ a b : Fin 8,
    field ((1#8 <<< 7) ||| (BitVec.ofNat 8 a.1 <<< 3) ||| BitVec.ofNat 8 b.1) 0 3 = b.1 ∧ field ((1#8 <<< 7) ||| (BitVec.ofNat 8 a.1 <<< 3) ||| BitVec.ofNat 8 b.1) 3 3 = a.1 := by decide +kernel

private theorem cnf3_decode : ∀ a : Fin 8, field (BitVec.ofNat 8 a.1) 0 3 = a.1 := by decide +kernel

private theorem mcp_decode {c : Mcp} (h1 : 1 ≤ c.sjw ∧ c.sjw ≤ 4) (h2 : 1 ≤ c.prop ∧ c.prop ≤ 8) (h3 : 1 ≤ c.ps1 ∧ c.ps1 ≤ 8) (h4 : 1 ≤ c.ps2 ∧ c.ps2 ≤ 8)
    (h5 : 2 ≤ c.prescaler ∧ c.prescaler ≤ 128) :
    mcp2515 (mcpCnf c) = ⟨2 * (c.prescaler / 2), c.prop + c.ps1, c.ps2⟩ ∧ mcp2515Sjw (mcpCnf c) = c.sjw := by
  obtain ⟨a1, a2⟩ := cnf1_decode ⟨c.sjw - 1, by omega⟩ ⟨c.prescaler / 2 - 1, by omega⟩
  obtain ⟨b1, b2⟩ := cnf2_decode ⟨c.ps1 - 1, by omega⟩ ⟨c.prop - 1, by omega⟩
  have c1 := cnf3_decode ⟨c.ps2 - 1, by omega⟩
  simp only at a1 a2 b1 b2 c1
  simp only [mcp2515, mcp2515Sjw, mcpCnf, a1, a2, b1, b2, c1, BitTime.mk.injEq]
  omega

/-- C165: if `initialize` compiles, for a crystal of 8 or 16 MHz or for 1 Mbit/s, and the prescaler is even, the MCP2515 has the bit rate asked for, the sample point between 75 and 80 percent, and a jump width of one. -/
theorem C165_partial {clk bitrate : ℕ} (h : mcpCompiles clk bitrate) (hclk : clk = 20000000 → bitrate = 1000000) (heven : 2 ∣ (mcpConfig clk bitrate).prescaler) :
    clk / (mcp2515 (mcpCnf (mcpConfig clk bitrate))).clocks = bitrate ∧
    3 * (1 + (mcp2515 (mcpCnf (mcpConfig clk bitrate))).seg1 + (mcp2515 (mcpCnf (mcpConfig clk bitrate))).seg2) ≤ 4 * (1 + (mcp2515 (mcpCnf (mcpConfig clk bitrate))).seg1) ∧
    5 * (1 + (mcp2515 (mcpCnf (mcpConfig clk bitrate))).seg1) ≤ 4 * (1 + (mcp2515 (mcpCnf (mcpConfig clk bitrate))).seg1 + (mcp2515 (mcpCnf (mcpConfig clk bitrate))).seg2) ∧
    mcp2515Sjw (mcpCnf (mcpConfig clk bitrate)) = 1 := by
  obtain ⟨h1, h2, h3, h4, h5, -, h6, h7, h8⟩ := h
  obtain ⟨e1, e2⟩ := mcp_decode h1 h2 h3 h4 h5
  rw [e1, e2]
  have hs : (mcpConfig clk bitrate).sjw = 1 := by
    have h1 := h1.1
    simp only [mcpConfig, mcpSjw] at h1 ⊢
    split_ifs at h1 ⊢ with a b c d
    · rfl
    · rfl
    · rfl
    · exact absurd (hclk c) d
    · omega
  rw [hs] at h6 h7 h8 ⊢
  simp only [BitTime.clocks]
  refine ⟨?_, by omega, by omega, trivial⟩
  rw [Nat.mul_div_cancel' heven, ← Nat.div_div_eq_div_mul, ← Nat.add_assoc 1]
  exact h6

/-- the values of the unit test for 8 and 16 MHz -/
example : mcpCompiles 8000000 125000 ∧ mcpConfig 8000000 125000 = ⟨1, 1, 4, 2, 8⟩ ∧ mcpCompiles 16000000 1000000 ∧ mcpConfig 16000000 1000000 = ⟨1, 1, 4, 2, 2⟩ ∧
    mcpCompiles 20000000 1000000 ∧ mcpConfig 20000000 1000000 = ⟨1, 3, 4, 2, 2⟩ := by decide +kernel

/-- C165: with 20 MHz the jump width is counted as if it were the synchronisation segment, three quanta instead of one: at every bit rate that compiles but 1 Mbit/s the bit is at least ten percent too short. -/
theorem C165_20MHz_counterexample {bitrate : ℕ} (hb : bitrate ≠ 1000000) (h : mcpCompiles 20000000 bitrate) :
    10 * (bitrate * (mcp2515 (mcpCnf (mcpConfig 20000000 bitrate))).clocks) ≤ 9 * 20000000 := by
  obtain ⟨h1, h2, h3, h4, h5, -, h6, -⟩ := h
  obtain ⟨e1, -⟩ := mcp_decode h1 h2 h3 h4 h5
  rw [e1]
  have g : (mcpConfig 20000000 bitrate).sjw = 3 ∧ (mcpConfig 20000000 bitrate).prop = 5 ∧ (mcpConfig 20000000 bitrate).ps1 = 8 ∧ (mcpConfig 20000000 bitrate).ps2 = 4 := by
    simp [mcpConfig, mcpSjw, mcpProp, mcpPs1, mcpPs2, hb]
  obtain ⟨g1, g2, g3, g4⟩ := g
  rw [g1, g2, g3, g4] at h6
  rw [g2, g3, g4]
  simp only [BitTime.clocks]
  generalize (mcpConfig 20000000 bitrate).prescaler = p at *
  rw [Nat.div_div_eq_div_mul] at h6
  have h7 : bitrate * (p * (3 + 5 + 8 + 4)) ≤ 20000000 := by rw [← h6]; exact Nat.div_mul_le_self _ _
  have h8 : 2 * (p / 2) ≤ p := Nat.mul_div_le p 2
  have h9 : bitrate * (2 * (p / 2)) ≤ bitrate * p := Nat.mul_le_mul_left _ h8
  have e3 : bitrate * (p * (3 + 5 + 8 + 4)) = 20 * (bitrate * p) := by ring
  have e4 : bitrate * (2 * (p / 2) * (1 + (5 + 8) + 4)) = 18 * (bitrate * (2 * (p / 2))) := by ring
  omega

/-- as in the unit test: 125 kbit/s becomes 138.9 kbit/s -/
example : mcpCompiles 20000000 125000 ∧ 20000000 / (mcp2515 (mcpCnf (mcpConfig 20000000 125000))).clocks = 138888 := by decide +kernel

/-- C165: odd prescalers pass the assertions, but the chip has only even ones: 200 kbit/s at 8 or 16 MHz becomes 250 kbit/s. -/
theorem C165_odd_counterexample : mcpCompiles 8000000 200000 ∧ (mcpConfig 8000000 200000).prescaler = 5 ∧ 8000000 / (mcp2515 (mcpCnf (mcpConfig 8000000 200000))).clocks = 250000 ∧
    mcpCompiles 16000000 200000 ∧ 16000000 / (mcp2515 (mcpCnf (mcpConfig 16000000 200000))).clocks = 250000 := by decide +kernel

/-- C165: 1 Mbit/s at 8 MHz compiles with a second phase segment of one quantum; the data sheet requires two. -/
theorem C165_segment_counterexample : mcpCompiles 8000000 1000000 ∧ (mcp2515 (mcpCnf (mcpConfig 8000000 1000000))).seg2 = 1 := by decide +kernel

end Props.CanTiming
