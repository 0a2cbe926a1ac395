import Mathlib.Tactic.Linarith
import Mathlib.Tactic.Ring
import Mathlib.Tactic.NormNum
import Mathlib.Tactic.Positivity
import Mathlib.Tactic.FieldSimp
import Mathlib.Tactic.IntervalCases
import Mathlib.Data.Nat.Cast.Order.Field
import Mathlib.Data.Nat.Cast.Field
import Verif.Model.Delay
import Verif.Spec.Delay
import Verif.Spec.CanTiming
import Verif.Props.CanTiming
import Verif.Props.Prescaler

set_option autoImplicit false

namespace Props.Delay
open Modm.Delay Spec.Delay Spec.CanTiming

/-! ## Rounding of the frequency -/

private theorem round_spec {q : ℚ} (hq : -(1 / 2) ≤ q) : |(roundF q : ℚ) - q| ≤ 1 / 2 := by
  have h0 : 0 ≤ ⌊q + 1 / 2⌋ := Int.floor_nonneg.2 (by linarith)
  have h1 : ((roundF q : ℕ) : ℚ) = (⌊q + 1 / 2⌋ : ℤ) := by
    unfold roundF
    have : ((⌊q + 1 / 2⌋.toNat : ℕ) : ℤ) = ⌊q + 1 / 2⌋ := Int.toNat_of_nonneg h0
    exact_mod_cast congrArg (Int.cast : ℤ → ℚ) this
  rw [h1, abs_le]
  have h2 := Int.floor_le (q + 1 / 2)
  have h3 := Int.lt_floor_add_one (q + 1 / 2)
  constructor <;> linarith

private theorem mhz {rnd : ℚ → ℚ} (hr : FloatRounding rnd) {s hz : ℕ} (h : hz * 2 ^ s ≤ 2 ^ 32) (hs : s ≤ 32) :
    ∃ m, computeMhz rnd s hz = some m ∧ |(m : ℚ) - hz * 2 ^ s / 1000000| ≤ 501 / 1000 := by
  have hS : (2 : ℚ) ^ s ≤ 2 ^ 32 := pow_le_pow_right₀ (by norm_num) hs
  have hS0 : (0 : ℚ) < 2 ^ s := by positivity
  have hX0 : (0 : ℚ) ≤ hz * 2 ^ s := by positivity
  have hX : (hz : ℚ) * 2 ^ s ≤ 2 ^ 32 := by exact_mod_cast h
  have hε : (1 : ℚ) / 2 ^ 100 * 2 ^ s ≤ 1 / 2 ^ 68 := by
    calc (1 : ℚ) / 2 ^ 100 * 2 ^ s ≤ 1 / 2 ^ 100 * 2 ^ 32 := by gcongr
      _ = 1 / 2 ^ 68 := by norm_num
  have e1 := hr.err hz
  have e2 := hr.err (rnd hz / 1000000)
  have e3 := hr.err (rnd (rnd hz / 1000000) * 2 ^ s)
  have e1' : |rnd hz * 2 ^ s - hz * 2 ^ s| ≤ hz * 2 ^ s / 2 ^ 24 + 1 / 2 ^ 68 := by
    rw [← sub_mul, abs_mul, abs_of_pos hS0]
    rw [abs_of_nonneg (by positivity : (0 : ℚ) ≤ hz)] at e1
    calc _ ≤ ((hz : ℚ) / 2 ^ 24 + 1 / 2 ^ 100) * 2 ^ s := by gcongr
      _ = hz * 2 ^ s / 2 ^ 24 + 1 / 2 ^ 100 * 2 ^ s := by ring
      _ ≤ _ := by linarith
  have e2' : |rnd (rnd hz / 1000000) * 2 ^ s - rnd hz * 2 ^ s / 1000000| ≤ |rnd hz * 2 ^ s| / 1000000 / 2 ^ 24 + 1 / 2 ^ 68 := by
    have : rnd (rnd hz / 1000000) * 2 ^ s - rnd hz * 2 ^ s / 1000000 = (rnd (rnd hz / 1000000) - rnd hz / 1000000) * 2 ^ s := by ring
    rw [this, abs_mul, abs_of_pos hS0]
    calc _ ≤ (|rnd hz / 1000000| / 2 ^ 24 + 1 / 2 ^ 100) * 2 ^ s := by gcongr
      _ = |rnd hz| * 2 ^ s / 1000000 / 2 ^ 24 + 1 / 2 ^ 100 * 2 ^ s := by
        rw [abs_div, abs_of_pos (by norm_num : (0 : ℚ) < 1000000)]; ring
      _ ≤ _ := by rw [abs_mul, abs_of_pos hS0]; linarith
  generalize hA : rnd hz * 2 ^ s = A at e1' e2'
  generalize hB : rnd (rnd hz / 1000000) * 2 ^ s = B at e2' e3
  generalize hX' : (hz : ℚ) * 2 ^ s = X at *
  have a1 : |A| ≤ 4300000000 := by
    have := abs_le.1 e1'
    rw [abs_le]; constructor <;> linarith
  have b0 : |B - A / 1000000| ≤ 3 / 10000 := by linarith
  have b1 : |B| ≤ 4301 := by
    have := abs_le.1 b0; have := abs_le.1 a1
    rw [abs_le]; constructor <;> linarith
  have c0 : |rnd B - B| ≤ 3 / 10000 := by linarith
  have c1 : |rnd B - X / 1000000| ≤ 1 / 1000 := by
    have := abs_le.1 b0; have := abs_le.1 c0; have := abs_le.1 e1'
    rw [abs_le]; constructor <;> linarith
  have c1' := abs_le.1 c1
  have hrd := round_spec (q := rnd B) (by linarith)
  have hrd' := abs_le.1 hrd
  refine ⟨roundF (rnd B), ?_, ?_⟩
  · unfold computeMhz toU16
    rw [hB, if_pos]
    have : ((roundF (rnd B) : ℕ) : ℚ) < 65536 := by linarith
    exact_mod_cast this
  · rw [abs_le]; constructor <;> linarith

private theorem usShift_le {fmax : ℕ} (h : fmax ≤ 2 ^ 32) : fmax * 2 ^ usShift fmax ≤ 2 ^ 32 := by
  unfold usShift
  have h1 : fmax ≤ 2 ^ Nat.clog 2 fmax := Nat.le_pow_clog (by norm_num) _
  have h2 : Nat.clog 2 fmax ≤ 32 := (Nat.clog_le_iff_le_pow (by norm_num)).2 h
  calc fmax * 2 ^ (32 - Nat.clog 2 fmax) ≤ 2 ^ Nat.clog 2 fmax * 2 ^ (32 - Nat.clog 2 fmax) := Nat.mul_le_mul_right _ h1
    _ = 2 ^ 32 := by rw [← pow_add]; congr 1; omega

private theorem cycles_bounds {m s us hz : ℕ} (hm : |(m : ℚ) - hz * 2 ^ s / 1000000| ≤ 501 / 1000) (ho : m * us < 2 ^ 32) :
    asked hz us 1000000 - 501 / 1000 * us / 2 ^ s - 1 < usCycles m s us ∧ (usCycles m s us : ℚ) ≤ asked hz us 1000000 + 501 / 1000 * us / 2 ^ s := by
  unfold usCycles asked
  rw [Nat.mod_eq_of_lt ho]
  have hS0 : (0 : ℚ) < 2 ^ s := by positivity
  have hu : (0 : ℚ) ≤ us := by positivity
  have hd := Nat.div_add_mod (m * us) (2 ^ s)
  have hlt := Nat.mod_lt (m * us) (Nat.two_pow_pos s)
  have hd' : (2 : ℚ) ^ s * ((m * us / 2 ^ s : ℕ) : ℚ) + ((m * us % 2 ^ s : ℕ) : ℚ) = m * us := by exact_mod_cast hd
  have hlt' : ((m * us % 2 ^ s : ℕ) : ℚ) < 2 ^ s := by exact_mod_cast hlt
  have hr0 : (0 : ℚ) ≤ ((m * us % 2 ^ s : ℕ) : ℚ) := by positivity
  obtain ⟨h1, h2⟩ := abs_le.1 hm
  generalize ((m * us / 2 ^ s : ℕ) : ℚ) = D at *
  generalize ((m * us % 2 ^ s : ℕ) : ℚ) = R at *
  have k1 : ((hz : ℚ) * 2 ^ s / 1000000 - 501 / 1000) * us ≤ m * us := by
    apply mul_le_mul_of_nonneg_right _ hu; linarith
  have k2 : (m : ℚ) * us ≤ (hz * 2 ^ s / 1000000 + 501 / 1000) * us := by
    apply mul_le_mul_of_nonneg_right _ hu; linarith
  have e1 : ((us : ℚ) * hz / (1000000 : ℕ) - 501 / 1000 * us / 2 ^ s - 1) * 2 ^ s = (hz * 2 ^ s / 1000000 - 501 / 1000) * us - 2 ^ s := by
    push_cast; field_simp
  have e2 : ((us : ℚ) * hz / (1000000 : ℕ) + 501 / 1000 * us / 2 ^ s) * 2 ^ s = (hz * 2 ^ s / 1000000 + 501 / 1000) * us := by
    push_cast; field_simp
  constructor
  · refine lt_of_mul_lt_mul_right ?_ hS0.le
    rw [e1]; linarith [mul_comm D (2 ^ s)]
  · refine le_of_mul_le_mul_right ?_ hS0
    rw [e2]; linarith [mul_comm D (2 ^ s)]

private theorem no_overflow {m s us hz : ℕ} (hm : |(m : ℚ) - hz * 2 ^ s / 1000000| ≤ 501 / 1000) (h : hz * 2 ^ s ≤ 4294400000) (hu : us ≤ 1000000) : m * us < 2 ^ 32 := by
  have h' : (hz : ℚ) * 2 ^ s ≤ 4294400000 := by exact_mod_cast h
  have := (abs_le.1 hm).2
  have : (m : ℚ) < 4295 := by linarith
  have : m < 4295 := by exact_mod_cast this
  calc m * us ≤ 4294 * 1000000 := Nat.mul_le_mul (by omega) hu
    _ < 2 ^ 32 := by norm_num

private theorem whole {m s n : ℕ} (hm : |(m : ℚ) - (1000000 * n : ℕ) * 2 ^ s / 1000000| ≤ 501 / 1000) : m = n * 2 ^ s := by
  have e : (((1000000 * n : ℕ) : ℚ) * 2 ^ s / 1000000) = ((n * 2 ^ s : ℕ) : ℚ) := by push_cast; ring
  rw [e] at hm
  obtain ⟨h1, h2⟩ := abs_le.1 hm
  have a : (m : ℚ) < ((n * 2 ^ s : ℕ) : ℚ) + 1 := by linarith
  have b : ((n * 2 ^ s : ℕ) : ℚ) < (m : ℚ) + 1 := by linarith
  have a' : m < n * 2 ^ s + 1 := by exact_mod_cast a
  have b' : n * 2 ^ s < m + 1 := by exact_mod_cast b
  omega

/-! ## C166: microseconds with the cycle counter -/

private theorem counter_sub (c : BitVec 32) {t0 u : ℕ} (h : t0 ≤ u) : (counter c u - counter c t0).toNat = (u - t0) % 2 ^ 32 := by
  unfold counter
  simp only [BitVec.toNat_sub, BitVec.toNat_add, BitVec.toNat_ofNat]
  omega

private theorem poll_early (c : BitVec 32) {t0 cyc gap : ℕ} : ∀ (ts : List ℕ) (t : ℕ), t0 ≤ t → Looks gap t ts → ∀ i, poll (counter c t0) cyc (ts.map (counter c)) = some i →
    ∃ u, ts[i]? = some u ∧ t0 ≤ u ∧ cyc ≤ u - t0
  | [], _, _, _, i, h => by simp [poll] at h
  | u :: ts, t, ht, hl, i, h => by
    obtain ⟨l1, l2, l3⟩ := hl
    have hu : t0 ≤ u := le_trans ht l1
    simp only [List.map_cons, poll, counter_sub c hu] at h
    split at h
    · rename_i hc
      injection h with h; subst h
      exact ⟨u, rfl, hu, le_trans hc (Nat.mod_le _ _)⟩
    · simp only [Option.map_eq_some_iff] at h
      obtain ⟨j, hj, rfl⟩ := h
      simpa using poll_early c ts u hu l3 j hj

private theorem poll_late (c : BitVec 32) {t0 cyc gap : ℕ} (hg : cyc + gap < 2 ^ 32) : ∀ (ts : List ℕ) (t : ℕ), t0 ≤ t → t ≤ t0 + cyc → Looks gap t ts →
    (∃ u ∈ ts, t0 + cyc ≤ u) → ∃ i u, poll (counter c t0) cyc (ts.map (counter c)) = some i ∧ ts[i]? = some u ∧ t0 ≤ u ∧ cyc ≤ u - t0 ∧ u - t0 ≤ cyc + gap
  | [], _, _, _, _, h => by simp at h
  | u :: ts, t, ht, ht', hl, h => by
    obtain ⟨l1, l2, l3⟩ := hl
    have hu : t0 ≤ u := le_trans ht l1
    have hmod : (u - t0) % 2 ^ 32 = u - t0 := Nat.mod_eq_of_lt (by omega)
    simp only [List.map_cons, poll, counter_sub c hu, hmod]
    by_cases hc : cyc ≤ u - t0
    · exact ⟨0, u, by rw [if_pos hc], rfl, hu, hc, by omega⟩
    · have h' : ∃ v ∈ ts, t0 + cyc ≤ v := by
        obtain ⟨v, hv, hv'⟩ := h
        rcases List.mem_cons.1 hv with rfl | hv
        · omega
        · exact ⟨v, hv, hv'⟩
      obtain ⟨i, v, p1, p2, p3⟩ := poll_late c hg ts u hu (by omega) l3 h'
      exact ⟨i + 1, v, by rw [if_neg hc, p1]; rfl, by simpa using p2, p3⟩

/-- C166: for every frequency and up to a second, `delay_us` with the cycle counter ends no earlier than the time asked for, but for one cycle and the rounding of the frequency (about half
of `1 / 2 ^ us_shift` MHz), whenever the counter is looked at and whatever it shows at first. -/
theorem C166_early_partial {rnd : ℚ → ℚ} (hr : FloatRounding rnd) {fmax hz us : ℕ} (hf : fmax ≤ 2 ^ 32) (hz1 : hz ≤ fmax) (hz2 : hz * 2 ^ usShift fmax ≤ 4294400000) (hu : us ≤ 1000000) :
    ∃ m, computeMhz rnd (usShift fmax) hz = some m ∧ ∀ (c : BitVec 32) (t0 gap : ℕ) (ts : List ℕ) (i : ℕ), Looks gap t0 ts →
      poll (counter c t0) (usCycles m (usShift fmax) us) (ts.map (counter c)) = some i →
      ∃ t, ts[i]? = some t ∧ t0 ≤ t ∧ asked hz us 1000000 - 501 / 1000 * us / 2 ^ usShift fmax - 1 < (t - t0 : ℕ) := by
  have hX : hz * 2 ^ usShift fmax ≤ 2 ^ 32 := le_trans (Nat.mul_le_mul_right _ hz1) (usShift_le hf)
  obtain ⟨m, h1, h2⟩ := mhz hr hX (Nat.sub_le _ _)
  refine ⟨m, h1, fun c t0 gap ts i hl hp => ?_⟩
  obtain ⟨t, a, b, d⟩ := poll_early c ts t0 le_rfl hl i hp
  refine ⟨t, a, b, lt_of_lt_of_le (cycles_bounds h2 (no_overflow h2 hz2 hu)).1 ?_⟩
  exact_mod_cast d

/-- C166: and if the counter is looked at every `gap` cycles, it ends at most `gap` later than that. -/
theorem C166_late {rnd : ℚ → ℚ} (hr : FloatRounding rnd) {fmax hz us : ℕ} (hf : fmax ≤ 2 ^ 31) (hz1 : hz ≤ fmax) (hz2 : hz * 2 ^ usShift fmax ≤ 4294400000) (hu : us ≤ 1000000) :
    ∃ m, computeMhz rnd (usShift fmax) hz = some m ∧ ∀ (c : BitVec 32) (t0 gap : ℕ) (ts : List ℕ), gap < 2 ^ 31 → Looks gap t0 ts →
      (∃ u ∈ ts, (t0 : ℚ) + asked hz us 1000000 + 501 / 1000 * us / 2 ^ usShift fmax ≤ u) →
      ∃ i t, poll (counter c t0) (usCycles m (usShift fmax) us) (ts.map (counter c)) = some i ∧ ts[i]? = some t ∧
        ((t - t0 : ℕ) : ℚ) ≤ asked hz us 1000000 + 501 / 1000 * us / 2 ^ usShift fmax + gap := by
  have hf' : fmax ≤ 2 ^ 32 := le_trans hf (by norm_num)
  have hX : hz * 2 ^ usShift fmax ≤ 2 ^ 32 := le_trans (Nat.mul_le_mul_right _ hz1) (usShift_le hf')
  obtain ⟨m, h1, h2⟩ := mhz hr hX (Nat.sub_le _ _)
  refine ⟨m, h1, fun c t0 gap ts hg hl hex => ?_⟩
  have hb := (cycles_bounds h2 (no_overflow h2 hz2 hu)).2
  have hs1 : 1 ≤ usShift fmax := by
    have : Nat.clog 2 fmax ≤ 31 := (Nat.clog_le_iff_le_pow (by norm_num)).2 hf
    unfold usShift; omega
  have hc : usCycles m (usShift fmax) us < 2 ^ 31 := by
    unfold usCycles
    have : 2 ^ 1 ≤ 2 ^ usShift fmax := Nat.pow_le_pow_right (by norm_num) hs1
    rw [Nat.div_lt_iff_lt_mul (by positivity)]
    have h3 := Nat.mod_lt (m * us) (by norm_num : 0 < 2 ^ 32)
    calc m * us % 2 ^ 32 < 2 ^ 31 * 2 ^ 1 := by omega
      _ ≤ _ := Nat.mul_le_mul_left _ this
  obtain ⟨v, hv, hv'⟩ := hex
  have hv2 : t0 + usCycles m (usShift fmax) us ≤ v := by
    have : ((t0 + usCycles m (usShift fmax) us : ℕ) : ℚ) ≤ v := by push_cast; linarith
    exact_mod_cast this
  obtain ⟨i, t, p1, p2, p3, p4, p5⟩ := poll_late c (by omega) ts t0 le_rfl (by omega) hl ⟨v, hv, hv2⟩
  refine ⟨i, t, p1, p2, ?_⟩
  have : ((t - t0 : ℕ) : ℚ) ≤ usCycles m (usShift fmax) us + gap := by exact_mod_cast p5
  linarith

/-- C166: at a whole number of MHz the frequency is not rounded, and `delay_us` waits for no less than the time asked for. -/
theorem C166_whole {rnd : ℚ → ℚ} (hr : FloatRounding rnd) {fmax n us : ℕ} (hf : fmax ≤ 2 ^ 32) (hz1 : 1000000 * n ≤ fmax) (hz2 : 1000000 * n * 2 ^ usShift fmax ≤ 4294400000) (hu : us ≤ 1000000) :
    ∃ m, computeMhz rnd (usShift fmax) (1000000 * n) = some m ∧ usCycles m (usShift fmax) us = n * us ∧
      ∀ (c : BitVec 32) (t0 gap : ℕ) (ts : List ℕ) (i : ℕ), Looks gap t0 ts →
      poll (counter c t0) (usCycles m (usShift fmax) us) (ts.map (counter c)) = some i → ∃ t, ts[i]? = some t ∧ t0 ≤ t ∧ asked (1000000 * n) us 1000000 ≤ (t - t0 : ℕ) := by
  have hX : 1000000 * n * 2 ^ usShift fmax ≤ 2 ^ 32 := le_trans (Nat.mul_le_mul_right _ hz1) (usShift_le hf)
  obtain ⟨m, h1, h2⟩ := mhz hr hX (Nat.sub_le _ _)
  have ho := no_overflow h2 hz2 hu
  have hm := whole h2
  have hc : usCycles m (usShift fmax) us = n * us := by
    unfold usCycles
    rw [Nat.mod_eq_of_lt ho, hm, mul_right_comm, Nat.mul_div_cancel _ (Nat.two_pow_pos _)]
  refine ⟨m, h1, hc, fun c t0 gap ts i hl hp => ?_⟩
  obtain ⟨t, a, b, d⟩ := poll_early c ts t0 le_rfl hl i hp
  refine ⟨t, a, b, ?_⟩
  rw [hc] at d
  have : ((n * us : ℕ) : ℚ) ≤ (t - t0 : ℕ) := by exact_mod_cast d
  calc asked (1000000 * n) us 1000000 = ((n * us : ℕ) : ℚ) := by unfold asked; push_cast; field_simp
    _ ≤ _ := this

-- 100 us at 72 MHz, with an interrupt of 10000 cycles in between and the counter about to wrap
example : usShift 72000000 = 5 ∧ 72000000 * 2 ^ 5 ≤ 4294400000 ∧ Looks 10000 20 [30, 40, 7000, 7215, 7225, 7235] ∧
    poll (counter 0xfffffff0#32 20) (usCycles 2304 5 100) ([30, 40, 7000, 7215, 7225, 7235].map (counter 0xfffffff0#32)) = some 4 := by
  refine ⟨rfl, by norm_num, by simp [Looks], by decide⟩

private theorem mhz_val {rnd : ℚ → ℚ} (hr : FloatRounding rnd) {s hz k : ℕ} (h : hz * 2 ^ s ≤ 2 ^ 32) (hs : s ≤ 32) (h1 : 1000000 * (k : ℚ) - 499000 < hz * 2 ^ s)
    (h2 : (hz : ℚ) * 2 ^ s < 1000000 * k + 499000) : computeMhz rnd s hz = some k := by
  obtain ⟨m, e, b⟩ := mhz hr h hs
  obtain ⟨b1, b2⟩ := abs_le.1 b
  have x1 : (m : ℚ) < k + 1 := by linarith
  have x2 : (k : ℚ) < m + 1 := by linarith
  have y1 : m < k + 1 := by exact_mod_cast x1
  have y2 : k < m + 1 := by exact_mod_cast x2
  rw [e]; congr 1; omega

/-- C166: the delay may be shorter than asked for: an STM32L0 after reset (2.097 MHz, at most 32 MHz) waits 1.5 ms too short in a second. -/
theorem C166_early_counterexample {rnd : ℚ → ℚ} (hr : FloatRounding rnd) : computeMhz rnd (usShift 32000000) 2097000 = some 268 ∧
    poll (counter 0#32 0) (usCycles 268 (usShift 32000000) 1000000) ([2093750].map (counter 0#32)) = some 0 ∧ (2093750 : ℚ) < asked 2097000 1000000 1000000 := by
  have : usShift 32000000 = 7 := rfl
  rw [this]
  exact ⟨mhz_val hr (by norm_num) (by norm_num) (by norm_num) (by norm_num), by decide, by norm_num [asked]⟩

/-- C166: at frequencies that are low for the device there is no delay at all, however long it should be. -/
theorem C166_none_counterexample {rnd : ℚ → ℚ} (hr : FloatRounding rnd) {fmax hz : ℕ} (hf : fmax ≤ 2 ^ 32) (hz1 : hz ≤ fmax) (h : hz * 2 ^ usShift fmax < 499000) :
    computeMhz rnd (usShift fmax) hz = some 0 ∧ ∀ us, usCycles 0 (usShift fmax) us = 0 := by
  have hX : hz * 2 ^ usShift fmax ≤ 2 ^ 32 := le_trans (Nat.mul_le_mul_right _ hz1) (usShift_le hf)
  have h' : (hz : ℚ) * 2 ^ usShift fmax < 499000 := by exact_mod_cast h
  have h0 : (0 : ℚ) ≤ hz * 2 ^ usShift fmax := by positivity
  refine ⟨mhz_val hr hX (Nat.sub_le _ _) (by push_cast; linarith) (by push_cast; linarith), fun us => by simp [usCycles]⟩

-- an STM32H7 of 480 MHz at 4 MHz / 128
example : usShift 480000000 = 3 ∧ 31250 * 2 ^ 3 < 499000 := ⟨rfl, by norm_num⟩

/-- C166: with `us_shift` alone the product may overflow within the second promised: for a device of just under 2^27 Hz a second is 1022 cycles. -/
theorem C166_overflow_counterexample {rnd : ℚ → ℚ} (hr : FloatRounding rnd) : computeMhz rnd (usShift 134217000) 134217000 = some 4295 ∧ usCycles 4295 (usShift 134217000) 1000000 = 1022 := by
  have : usShift 134217000 = 5 := by decide +kernel
  rw [this]
  exact ⟨mhz_val hr (by norm_num) (by norm_num) (by norm_num) (by norm_num), rfl⟩

/-- C166: a delay that is looked at exactly when the counter is back where it was goes on. -/
theorem C166_wrap_counterexample (c : BitVec 32) (t0 cyc : ℕ) (h : 0 < cyc) : poll (counter c t0) cyc ([t0 + 2 ^ 32].map (counter c)) = none := by
  simp only [List.map_cons, List.map_nil, poll, counter_sub c (by omega : t0 ≤ t0 + 2 ^ 32)]
  rw [if_neg (by simp; omega)]; rfl

/-! ## C167: milliseconds and durations -/

private theorem msCalls_spec : ∀ ms : ℕ, (msCalls ms).sum = ms * 1000 ∧ (∀ u ∈ msCalls ms, u ≤ 1000000) := by
  intro ms
  induction ms using Nat.strong_induction_on with
  | _ ms ih =>
    rw [msCalls]
    split
    · rename_i h; simp; omega
    · rename_i h
      obtain ⟨h1, h2⟩ := ih (ms - 1000) (by omega)
      constructor
      · rw [List.sum_cons, h1]; omega
      · intro u hu
        rcases List.mem_cons.1 hu with rfl | hu
        · exact le_rfl
        · exact h2 u hu

/-- C167: `delay_ms` comes to an end and splits any number of milliseconds into delays of at most a second that add up to it. -/
theorem C167_split (ms : ℕ) : (msCalls ms).sum = ms * 1000 ∧ ∀ u ∈ msCalls ms, u ≤ 1000000 := msCalls_spec ms

/-- C167: so at a whole number of MHz a delay of any number of milliseconds waits for no less than asked, if each call of `delay_us` waits for no less than its cycles. -/
theorem C167_ms {rnd : ℚ → ℚ} (hr : FloatRounding rnd) {fmax n ms : ℕ} (hf : fmax ≤ 2 ^ 32) (hz1 : 1000000 * n ≤ fmax) (hz2 : 1000000 * n * 2 ^ usShift fmax ≤ 4294400000) :
    ∃ m, computeMhz rnd (usShift fmax) (1000000 * n) = some m ∧ ∀ es : List ℕ, List.Forall₂ (fun us e => usCycles m (usShift fmax) us ≤ e) (msCalls ms) es →
      asked (1000000 * n) ms 1000 ≤ es.sum := by
  have hX : 1000000 * n * 2 ^ usShift fmax ≤ 2 ^ 32 := le_trans (Nat.mul_le_mul_right _ hz1) (usShift_le hf)
  obtain ⟨m, h1, h2⟩ := mhz hr hX (Nat.sub_le _ _)
  refine ⟨m, h1, fun es h => ?_⟩
  have hc : ∀ us ≤ 1000000, usCycles m (usShift fmax) us = n * us := by
    intro us hu
    have ho := no_overflow h2 hz2 hu
    unfold usCycles
    rw [Nat.mod_eq_of_lt ho, whole h2, mul_right_comm, Nat.mul_div_cancel _ (Nat.two_pow_pos _)]
  obtain ⟨hs, hle⟩ := msCalls_spec ms
  have key : ∀ us es : List ℕ, (∀ u ∈ us, u ≤ 1000000) → List.Forall₂ (fun us e => usCycles m (usShift fmax) us ≤ e) us es → n * us.sum ≤ es.sum := by
    intro us es hu hall
    induction hall with
    | nil => simp
    | @cons a b as bs hab _ ih =>
      have := hc a (hu a (by simp))
      have := ih (fun u h => hu u (by simp [h]))
      simp only [List.sum_cons, Nat.mul_add]
      omega
  have := key _ _ hle h
  rw [hs] at this
  have h3 : ((n * (ms * 1000) : ℕ) : ℚ) ≤ es.sum := by exact_mod_cast this
  calc asked (1000000 * n) ms 1000 = ((n * (ms * 1000) : ℕ) : ℚ) := by unfold asked; push_cast; ring
    _ ≤ _ := h3

example : msCalls 2500 = [1000000, 1000000, 500000] := by simp [msCalls]

private theorem toU32_id {n : ℤ} (h0 : 0 ≤ n) (h1 : n < 2 ^ 32) : (toU32 n : ℤ) = n := by
  unfold toU32; rw [Int.emod_eq_of_lt h0 h1]; exact Int.toNat_of_nonneg h0

/-- C167: a number of nanoseconds, microseconds or milliseconds that fits 32 bits is passed on as it is. -/
theorem C167_exact {count : ℤ} (h0 : 0 ≤ count) (h1 : count < 2 ^ 32) : delay count 1 1000000000 = .ns count.toNat ∧ delay count 1 1000000 = .us count.toNat ∧ delay count 1 1000 = .ms count.toNat := by
  have : toU32 count = count.toNat := by unfold toU32; rw [Int.emod_eq_of_lt h0 h1]
  simp [delay, this]

/-- C167: a duration of any other unit is passed on in milliseconds and may come out up to a millisecond short; it is exact if it is a whole number of them. -/
theorem C167_other_partial {count : ℤ} {num den : ℕ} (hd : 0 < den) (h0 : 0 ≤ count) (h1 : seconds count num den * 1000 < 2 ^ 32)
    (hu : ¬(num = 1 ∧ (den = 1000000000 ∨ den = 1000000 ∨ den = 1000))) :
    ∃ ms, delay count num den = .ms ms ∧ (ms : ℚ) ≤ seconds count num den * 1000 ∧ seconds count num den * 1000 < ms + 1 ∧ ((den : ℤ) ∣ count * num * 1000 → (ms : ℚ) = seconds count num den * 1000) := by
  obtain ⟨c, rfl⟩ := Int.eq_ofNat_of_zero_le h0
  have hD : (0 : ℚ) < den := by exact_mod_cast hd
  have hs : seconds (c : ℤ) num den * 1000 = ((c * num * 1000 : ℕ) : ℚ) / den := by unfold seconds; push_cast; ring
  rw [hs] at h1 ⊢
  have hq : ((c : ℤ) * num * 1000).tdiv den = ((c * num * 1000 / den : ℕ) : ℤ) := by
    rw [Int.tdiv_eq_ediv_of_nonneg (by positivity)]; push_cast; rfl
  have hle : ((c * num * 1000 / den : ℕ) : ℚ) ≤ ((c * num * 1000 : ℕ) : ℚ) / den := Nat.cast_div_le
  have hlt : ((c * num * 1000 : ℕ) : ℚ) / den < ((c * num * 1000 / den : ℕ) : ℚ) + 1 := by
    rw [div_lt_iff₀ hD]
    have h3 := Nat.lt_mul_div_succ (c * num * 1000) hd
    have : ((c * num * 1000 : ℕ) : ℚ) < ((den * (c * num * 1000 / den + 1) : ℕ) : ℚ) := by exact_mod_cast h3
    rw [mul_comm (_ + 1)]; push_cast at this ⊢; exact this
  have hfit : ((c * num * 1000 / den : ℕ) : ℤ) < 2 ^ 32 := by
    have : ((c * num * 1000 / den : ℕ) : ℚ) < 2 ^ 32 := lt_of_le_of_lt hle h1
    exact_mod_cast this
  have hto : toU32 ((c * num * 1000 / den : ℕ) : ℤ) = c * num * 1000 / den := by
    have := toU32_id (by positivity) hfit
    exact_mod_cast this
  refine ⟨c * num * 1000 / den, ?_, hle, hlt, fun hdvd => ?_⟩
  · unfold delay
    rw [if_neg (fun h => hu ⟨h.1, .inl h.2⟩), if_neg (fun h => hu ⟨h.1, .inr (.inl h.2)⟩), if_neg (fun h => hu ⟨h.1, .inr (.inr h.2)⟩), hq, hto]
  · have : den ∣ c * num * 1000 := by exact_mod_cast hdvd
    rw [Nat.cast_div this (by positivity)]

-- two minutes; a third of a second
example : delay 2 60 1 = .ms 120000 ∧ delay 1 1 3 = .ms 333 := by decide

/-- C167: units finer than a millisecond other than the three are lost, and so are durations that are negative or do not fit 32 bits. -/
theorem C167_counterexample : delay 9 1 10000 = .ms 0 ∧ delay 999000000 1 1000000000000 = .ms 0 ∧ delay (-1) 1 1000 = .ms 4294967295 ∧ delay 5000000 1 1 = .ms 705032704 ∧
    delay 5000000000 1 1000000000 = .ns 705032704 := by decide

/-! ## C168: loops that subtract -/

private theorem msb_sub {x p : ℕ} (hx : x < 2 ^ 31) (hp : p < 2 ^ 31) : (BitVec.ofNat 32 x - BitVec.ofNat 32 p).msb = decide (x < p) := by
  rw [BitVec.msb_eq_decide]
  simp only [BitVec.toNat_sub, BitVec.toNat_ofNat]
  congr 1
  rw [eq_iff_iff]
  omega

private theorem loops_iff {p : ℕ} (hp0 : 0 < p) (hp : p < 2 ^ 31) : ∀ (x : ℕ), x < 2 ^ 31 → ∀ k, Loops (BitVec.ofNat 32 p) (BitVec.ofNat 32 x) k ↔ k = x / p + 1 := by
  intro x
  induction x using Nat.strong_induction_on with
  | _ x ih =>
    intro hx k
    have hm := msb_sub hx hp
    by_cases h : x < p
    · rw [Nat.div_eq_of_lt h]
      constructor
      · intro hl
        cases hl with
        | last _ => rfl
        | again h1 _ => rw [hm] at h1; simp at h1; omega
      · rintro rfl
        exact Loops.last (by rw [hm]; simpa using h)
    · have hs : BitVec.ofNat 32 x - BitVec.ofNat 32 p = BitVec.ofNat 32 (x - p) := by
        apply BitVec.eq_of_toNat_eq
        simp only [BitVec.toNat_sub, BitVec.toNat_ofNat]; omega
      have ih' := ih (x - p) (by omega) (by omega)
      have hdiv : x / p = (x - p) / p + 1 := by
        rw [Nat.div_eq_sub_div hp0 (by omega)]
      constructor
      · intro hl
        cases hl with
        | last h1 => rw [hm] at h1; simp at h1; omega
        | again _ h2 => rw [hs] at h2; rw [(ih' _).1 h2, hdiv]
      · rintro rfl
        rw [hdiv]
        refine Loops.again (by rw [hm]; simpa using h) ?_
        rw [hs]
        exact (ih' _).2 rfl

private theorem loops_neg {p d : ℕ} {x : BitVec 32} (hx : x.toNat + d = 2 ^ 32) (h : d + p ≤ 2 ^ 31) (k : ℕ) : Loops (BitVec.ofNat 32 p) x k ↔ k = 1 := by
  have hm : (x - BitVec.ofNat 32 p).msb = true := by
    rw [BitVec.msb_eq_decide]
    simp only [BitVec.toNat_sub, BitVec.toNat_ofNat, decide_eq_true_eq]
    omega
  constructor
  · intro hl
    cases hl with
    | last _ => rfl
    | again h1 _ => rw [hm] at h1; simp at h1
  · rintro rfl; exact Loops.last hm

private theorem shl {p sh : ℕ} (h : p * 2 ^ sh < 2 ^ 32) : (BitVec.ofNat 32 p <<< sh).toNat = p * 2 ^ sh := by
  have hp : p < 2 ^ 32 := lt_of_le_of_lt (Nat.le_mul_of_pos_right p (Nat.two_pow_pos sh)) h
  rw [BitVec.toNat_shiftLeft, BitVec.toNat_ofNat, Nat.mod_eq_of_lt hp, Nat.shiftLeft_eq, Nat.mod_eq_of_lt h]

/-- passes of the loop, for the nanoseconds a pass is taken to last -/
private theorem ns_iff {p sh ns : ℕ} (hp0 : 0 < p) (hp : p < 2 ^ 16) (hsh : sh ≤ 8) (hns : ns < 2 ^ 31) (k : ℕ) : nsLoops p sh ns k ↔ k = (ns - p * 2 ^ sh) / p + 1 := by
  have h2 : 2 ^ sh ≤ 2 ^ 8 := Nat.pow_le_pow_right (by norm_num) hsh
  have hps : p * 2 ^ sh ≤ 2 ^ 16 * 2 ^ 8 := Nat.mul_le_mul hp.le h2
  have hsl := shl (p := p) (sh := sh) (by omega)
  unfold nsLoops nsRegister
  by_cases h : p * 2 ^ sh ≤ ns
  · have : BitVec.ofNat 32 ns - (BitVec.ofNat 32 p <<< sh) = BitVec.ofNat 32 (ns - p * 2 ^ sh) := by
      apply BitVec.eq_of_toNat_eq
      rw [BitVec.toNat_sub, hsl]
      simp only [BitVec.toNat_ofNat]
      omega
    rw [this]
    exact loops_iff hp0 (by omega) _ (by omega) k
  · have h0 : ns - p * 2 ^ sh = 0 := by omega
    rw [h0, Nat.zero_div]
    apply loops_neg (d := p * 2 ^ sh - ns)
    · rw [BitVec.toNat_sub, hsl]
      simp only [BitVec.toNat_ofNat]
      omega
    · omega

private theorem nsPer {rnd : ℚ → ℚ} (hr : DoubleRounding rnd) {loop hz : ℕ} (hl : 3 ≤ loop) (h0 : 0 < hz) (hz32 : hz < 2 ^ 32) (hmin : loop * 1000000000 ≤ 65000 * hz) :
    ∃ p, computeNsPerLoop rnd loop hz = some p ∧ 0 < p ∧ p < 2 ^ 16 ∧ |(p : ℚ) - loop * 1000000000 / hz| ≤ 501 / 1000 := by
  have hZ : (0 : ℚ) < hz := by exact_mod_cast h0
  have hZ' : (hz : ℚ) < 4294967296 := by exact_mod_cast hz32
  have hL : (3 : ℚ) ≤ loop := by exact_mod_cast hl
  have hq1 : (698 / 1000 : ℚ) ≤ (loop : ℚ) * 1000000000 / hz := by
    rw [le_div_iff₀ hZ]; linarith
  have hq2 : (loop : ℚ) * 1000000000 / hz ≤ 65000 := by
    rw [div_le_iff₀ hZ]; exact_mod_cast hmin
  have he := hr.err ((loop : ℚ) * 1000000000 / hz) (le_trans (by norm_num) hq1)
  unfold computeNsPerLoop
  generalize (loop : ℚ) * 1000000000 / hz = q at *
  obtain ⟨e1, e2⟩ := abs_le.1 he
  have e1' : -(1 / 1000) ≤ rnd q - q := by linarith
  have e2' : rnd q - q ≤ 1 / 1000 := by linarith
  obtain ⟨r1, r2⟩ := abs_le.1 (round_spec (q := rnd q) (by linarith))
  have hlt : ((roundF (rnd q) : ℕ) : ℚ) < 65536 := by linarith
  have hpos : (0 : ℚ) < ((roundF (rnd q) : ℕ) : ℚ) := by linarith
  have hlt' : roundF (rnd q) < 2 ^ 16 := by exact_mod_cast hlt
  refine ⟨roundF (rnd q), by rw [toU16, if_pos hlt'], by exact_mod_cast hpos, hlt', ?_⟩
  rw [abs_le]; constructor <;> linarith

/-- C168: `delay_ns` returns for every number below 2^31. If a pass of the loop takes `loop` cycles and what is around the loop as long as `2 ^ sh` passes, as the tables of the modules say, it lasts
as long as asked, or the least it can, and at most one pass longer, but for the rounding of the nanoseconds of a pass (half of one in `p`). -/
theorem C168_ns_partial {rnd : ℚ → ℚ} (hr : DoubleRounding rnd) {loop hz sh ns : ℕ} (hl : 3 ≤ loop) (h0 : 0 < hz) (hz32 : hz < 2 ^ 32) (hmin : loop * 1000000000 ≤ 65000 * hz) (hsh : sh ≤ 8)
    (hns : ns < 2 ^ 31) : ∃ p, computeNsPerLoop rnd loop hz = some p ∧ 0 < p ∧ |(p : ℚ) - loop * 1000000000 / hz| ≤ 501 / 1000 ∧ ∃ k, nsLoops p sh ns k ∧ (∀ k', nsLoops p sh ns k' → k' = k) ∧
      (p - 501 / 1000 : ℚ) * asked hz ns 1000000000 ≤ p * ((k + 2 ^ sh) * loop : ℕ) ∧
      p * (((k + 2 ^ sh) * loop : ℕ) : ℚ) ≤ (p + 501 / 1000 : ℚ) * asked hz (max ns (p * 2 ^ sh) + p) 1000000000 := by
  obtain ⟨p, h1, hp0, hp, h2⟩ := nsPer hr hl h0 hz32 hmin
  have hiff := ns_iff (sh := sh) hp0 hp hsh hns
  refine ⟨p, h1, hp0, h2, (ns - p * 2 ^ sh) / p + 1, (hiff _).2 rfl, fun k' hk' => (hiff k').1 hk', ?_⟩
  have hZ : (0 : ℚ) < hz := by exact_mod_cast h0
  have hP : (0 : ℚ) < p := by exact_mod_cast hp0
  set k := (ns - p * 2 ^ sh) / p + 1 with hk
  -- the passes in nanoseconds
  have hd := Nat.div_add_mod (ns - p * 2 ^ sh) p
  have hlt := Nat.mod_lt (ns - p * 2 ^ sh) hp0
  have hkp : p * k = p * ((ns - p * 2 ^ sh) / p) + p := by rw [hk]; ring
  have n1 : ns ≤ p * (k + 2 ^ sh) := by rw [Nat.mul_add]; omega
  have n2 : p * (k + 2 ^ sh) ≤ max ns (p * 2 ^ sh) + p := by rw [Nat.mul_add]; omega
  have n1' : (ns : ℚ) ≤ p * (k + 2 ^ sh : ℕ) := by exact_mod_cast n1
  have n2' : (p : ℚ) * (k + 2 ^ sh : ℕ) ≤ (max ns (p * 2 ^ sh) + p : ℕ) := by exact_mod_cast n2
  obtain ⟨b1, b2⟩ := abs_le.1 h2
  have hloop : (loop : ℚ) = (loop * 1000000000 / hz) * hz / 1000000000 := by field_simp
  have b1' : (p - 501 / 1000 : ℚ) * (hz / 1000000000) ≤ loop := by
    rw [hloop]
    have : (p - 501 / 1000 : ℚ) ≤ loop * 1000000000 / hz := by linarith
    calc (p - 501 / 1000 : ℚ) * (hz / 1000000000) ≤ (loop * 1000000000 / hz) * (hz / 1000000000) := by
          apply mul_le_mul_of_nonneg_right this; positivity
      _ = _ := by ring
  have b2' : (loop : ℚ) ≤ (p + 501 / 1000 : ℚ) * (hz / 1000000000) := by
    rw [hloop]
    have : (loop : ℚ) * 1000000000 / hz ≤ p + 501 / 1000 := by linarith
    calc _ = ((loop : ℚ) * 1000000000 / hz) * (hz / 1000000000) := by ring
      _ ≤ _ := by apply mul_le_mul_of_nonneg_right this; positivity
  have hl0 : (0 : ℚ) ≤ loop := by positivity
  constructor
  · calc (p - 501 / 1000 : ℚ) * asked hz ns 1000000000 = ns * ((p - 501 / 1000 : ℚ) * (hz / 1000000000)) := by unfold asked; push_cast; ring
      _ ≤ ns * loop := by apply mul_le_mul_of_nonneg_left b1'; positivity
      _ ≤ (p * (k + 2 ^ sh : ℕ)) * loop := mul_le_mul_of_nonneg_right n1' hl0
      _ = _ := by push_cast; ring
  · calc p * (((k + 2 ^ sh) * loop : ℕ) : ℚ) = (p * (k + 2 ^ sh : ℕ)) * loop := by push_cast; ring
      _ ≤ (max ns (p * 2 ^ sh) + p : ℕ) * loop := mul_le_mul_of_nonneg_right n2' hl0
      _ ≤ (max ns (p * 2 ^ sh) + p : ℕ) * ((p + 501 / 1000 : ℚ) * (hz / 1000000000)) := by apply mul_le_mul_of_nonneg_left b2'; positivity
      _ = _ := by unfold asked; push_cast; ring

-- 1 us at 72 MHz (four cycles a pass): 56 ns, 14 passes and 4 around them
example : (Modm.Delay.computeNsPerLoop id 4 72000000 = some 56) ∧ nsLoops 56 2 1000 14 := by
  refine ⟨by decide +kernel, (ns_iff (by norm_num) (by norm_num) (by norm_num) (by norm_num) _).2 rfl⟩

private theorem nsPer_val {rnd : ℚ → ℚ} (hr : DoubleRounding rnd) {loop hz k : ℕ} (hl : 3 ≤ loop) (h0 : 0 < hz) (hz32 : hz < 2 ^ 32) (hmin : loop * 1000000000 ≤ 65000 * hz)
    (h1 : (k : ℚ) - 499 / 1000 < loop * 1000000000 / hz) (h2 : (loop : ℚ) * 1000000000 / hz < k + 499 / 1000) : computeNsPerLoop rnd loop hz = some k := by
  obtain ⟨p, e, _, _, b⟩ := nsPer hr hl h0 hz32 hmin
  obtain ⟨b1, b2⟩ := abs_le.1 b
  have x1 : (p : ℚ) < k + 1 := by linarith
  have x2 : (k : ℚ) < p + 1 := by linarith
  have y1 : p < k + 1 := by exact_mod_cast x1
  have y2 : k < p + 1 := by exact_mod_cast x2
  rw [e]; congr 1; omega

/-- C168: the delay may be shorter than asked for: an STM32G4 at 170 MHz waits 980 us for a millisecond. -/
theorem C168_early_counterexample {rnd : ℚ → ℚ} (hr : DoubleRounding rnd) : computeNsPerLoop rnd 3 170000000 = some 18 ∧ nsLoops 18 2 1000000 55552 ∧
    (((55552 + 2 ^ 2) * 3 : ℕ) : ℚ) < 981 / 1000 * asked 170000000 1000000 1000000000 := by
  refine ⟨nsPer_val hr (by norm_num) (by norm_num) (by norm_num) (by norm_num) (by norm_num) (by norm_num), (ns_iff (by norm_num) (by norm_num) (by norm_num) (by norm_num) _).2 rfl, by norm_num [asked]⟩

/-- C168: beyond 2^31 ns the loop is passed once, as for no delay. -/
theorem C168_range_counterexample {p sh ns k : ℕ} (hp : p < 2 ^ 16) (hsh : sh ≤ 8) (h1 : 2 ^ 31 + p * 2 ^ sh + p ≤ ns) (h2 : ns < 2 ^ 32) : nsLoops p sh ns k ↔ k = 1 := by
  have hh : 2 ^ sh ≤ 2 ^ 8 := Nat.pow_le_pow_right (by norm_num) hsh
  have hps : p * 2 ^ sh ≤ 2 ^ 16 * 2 ^ 8 := Nat.mul_le_mul hp.le hh
  have hsl := shl (p := p) (sh := sh) (by omega)
  unfold nsLoops nsRegister
  apply loops_neg (d := 2 ^ 32 - (ns - p * 2 ^ sh))
  · rw [BitVec.toNat_sub, hsl]
    simp only [BitVec.toNat_ofNat]
    omega
  · omega

example : nsLoops 56 2 3000000000 1 := (C168_range_counterexample (by norm_num) (by norm_num) (by norm_num) (by norm_num)).2 rfl

/-- C168: where a pass takes so long that its nanoseconds do not fit 16 bits, the conversion is undefined. -/
theorem C168_slow_counterexample : computeNsPerLoop id 4 32768 = none := by decide +kernel

/-- C168: `delay_us` of the Cortex-M0 returns, and if a pass of its loop takes `loop` cycles, it waits as long as asked, but for one cycle and the rounding of the frequency, and at most one pass longer. -/
theorem C168_m0_partial {rnd : ℚ → ℚ} (hr : FloatRounding rnd) {loop fmax hz us : ℕ} (hl : 0 < loop) (hl' : loop ≤ 8) (hf : fmax ≤ 2 ^ 31) (hz1 : hz ≤ fmax) (hz2 : hz * 2 ^ usShift fmax ≤ 4294400000)
    (hu : us ≤ 1000000) : ∃ m, computeMhz rnd (usShift fmax) hz = some m ∧ ∃ k, usLoops loop m (usShift fmax) us k ∧ (∀ k', usLoops loop m (usShift fmax) us k' → k' = k) ∧
      asked hz us 1000000 - 501 / 1000 * us / 2 ^ usShift fmax - 1 < (k * loop : ℕ) ∧ ((k * loop : ℕ) : ℚ) ≤ asked hz us 1000000 + 501 / 1000 * us / 2 ^ usShift fmax + loop := by
  have hf' : fmax ≤ 2 ^ 32 := le_trans hf (by norm_num)
  have hX : hz * 2 ^ usShift fmax ≤ 2 ^ 32 := le_trans (Nat.mul_le_mul_right _ hz1) (usShift_le hf')
  obtain ⟨m, h1, h2⟩ := mhz hr hX (Nat.sub_le _ _)
  obtain ⟨c1, c2⟩ := cycles_bounds h2 (no_overflow h2 hz2 hu)
  have hs1 : 1 ≤ usShift fmax := by
    have : Nat.clog 2 fmax ≤ 31 := (Nat.clog_le_iff_le_pow (by norm_num)).2 hf
    unfold usShift; omega
  have hc : usCycles m (usShift fmax) us < 2 ^ 31 := by
    unfold usCycles
    have : 2 ^ 1 ≤ 2 ^ usShift fmax := Nat.pow_le_pow_right (by norm_num) hs1
    rw [Nat.div_lt_iff_lt_mul (by positivity)]
    have h3 := Nat.mod_lt (m * us) (by norm_num : 0 < 2 ^ 32)
    calc m * us % 2 ^ 32 < 2 ^ 31 * 2 ^ 1 := by omega
      _ ≤ _ := Nat.mul_le_mul_left _ this
  have hiff := loops_iff hl (by omega) _ hc
  refine ⟨m, h1, usCycles m (usShift fmax) us / loop + 1, (hiff _).2 rfl, fun k' hk' => (hiff k').1 hk', ?_⟩
  generalize usCycles m (usShift fmax) us = c at *
  have hd := Nat.div_add_mod c loop
  have hlt := Nat.mod_lt c hl
  have hk : (c / loop + 1) * loop = loop * (c / loop) + loop := by ring
  have a1 : c ≤ (c / loop + 1) * loop := by omega
  have a2 : (c / loop + 1) * loop ≤ c + loop := by omega
  have a1' : (c : ℚ) ≤ ((c / loop + 1) * loop : ℕ) := by exact_mod_cast a1
  have a2' : (((c / loop + 1) * loop : ℕ) : ℚ) ≤ c + loop := by exact_mod_cast a2
  constructor <;> linarith

-- an STM32L0 at 32 MHz
example : usShift 32000000 = 7 ∧ 32000000 * 2 ^ 7 ≤ 4294400000 ∧ usLoops 3 4096 7 100 1067 := ⟨rfl, by norm_num, (loops_iff (by norm_num) (by norm_num) _ (by norm_num [usCycles]) _).2 rfl⟩

/-! ## C169: AVR -/

private theorem ceil_exact {rnd : ℚ → ℚ} (hr : DoubleRounding rnd) {a d : ℕ} (hd : 0 < d) (hd' : d ≤ 1000000000) (ha : a < 2 ^ 52) (hfit : a ≤ (2 ^ 32 - 1) * d) :
    ⌈rnd ((a : ℚ) / d)⌉.toNat < 2 ^ 32 ∧ (a : ℚ) / d ≤ ⌈rnd ((a : ℚ) / d)⌉.toNat ∧ (⌈rnd ((a : ℚ) / d)⌉.toNat : ℚ) < (a : ℚ) / d + 1 := by
  have hD : (0 : ℚ) < d := by exact_mod_cast hd
  have hdm := Nat.div_add_mod a d
  have hml := Nat.mod_lt a hd
  have hq : a / d ≤ 2 ^ 32 - 1 := Nat.div_le_of_le_mul (by rw [mul_comm]; exact hfit)
  by_cases h : a % d = 0
  · have he : (a : ℚ) / d = ((a / d : ℕ) : ℚ) := by
      rw [div_eq_iff hD.ne']
      have : a = a / d * d := by rw [mul_comm (a / d)]; omega
      exact_mod_cast this
    rw [he, hr.nat _ (by omega)]
    have : ⌈((a / d : ℕ) : ℚ)⌉.toNat = a / d := by rw [Int.ceil_natCast, Int.toNat_natCast]
    rw [this]
    exact ⟨by omega, le_rfl, by linarith⟩
  · have h1 : d * (a / d) + 1 ≤ a := by omega
    have h1' : (d : ℚ) * ((a / d : ℕ) : ℚ) + 1 ≤ a := by exact_mod_cast h1
    have h2 : a ≤ d * (a / d) + d := by omega
    have h2' : (a : ℚ) ≤ d * ((a / d : ℕ) : ℚ) + d := by exact_mod_cast h2
    have h3 : a / d + 1 ≤ 2 ^ 32 - 1 := by
      by_contra hc
      have : a / d = 2 ^ 32 - 1 := by omega
      rw [this] at h1
      rw [mul_comm] at hfit
      omega
    have ha1 : (1 : ℚ) ≤ a := by exact_mod_cast (by omega : 1 ≤ a)
    have hlo : ((a / d : ℕ) : ℚ) + 1 / d ≤ (a : ℚ) / d := by
      rw [le_div_iff₀ hD, add_mul, one_div, inv_mul_cancel₀ hD.ne']; linarith [mul_comm (d : ℚ) ((a / d : ℕ) : ℚ)]
    have hhi : (a : ℚ) / d ≤ ((a / d + 1 : ℕ) : ℚ) := by
      rw [div_le_iff₀ hD]; push_cast; linarith [mul_comm (d : ℚ) ((a / d : ℕ) : ℚ)]
    have hhi' : rnd ((a : ℚ) / d) ≤ ((a / d + 1 : ℕ) : ℚ) := by
      have := hr.mono _ _ hhi
      rwa [hr.nat _ (by omega)] at this
    have hbig : (1 : ℚ) / 2 ^ 100 ≤ (a : ℚ) / d := by
      rw [le_div_iff₀ hD]
      have : (d : ℚ) ≤ 1000000000 := by exact_mod_cast hd'
      linarith
    have hs : (a : ℚ) / d / 2 ^ 53 < 1 / d := by
      rw [div_div, div_lt_div_iff₀ (by positivity) hD]
      have : (a : ℚ) < 2 ^ 52 := by exact_mod_cast ha
      have h53 : (1 : ℚ) * (d * 2 ^ 53) = (2 ^ 53) * d := by ring
      rw [h53]
      apply mul_lt_mul_of_pos_right _ hD
      linarith
    have hlo' : ((a / d : ℕ) : ℚ) < rnd ((a : ℚ) / d) := by
      have he := (abs_le.1 (hr.err _ hbig)).1
      linarith
    have hc : ⌈rnd ((a : ℚ) / d)⌉ = ((a / d + 1 : ℕ) : ℤ) := by
      rw [Int.ceil_eq_iff]
      constructor
      · rw [Int.cast_natCast, Nat.cast_add, Nat.cast_one]; linarith
      · rw [Int.cast_natCast]; exact hhi'
    rw [hc, Int.toNat_natCast]
    refine ⟨by omega, hhi, ?_⟩
    have : (0 : ℚ) < 1 / d := by positivity
    push_cast; linarith

/-- C169: of a constant, the AVR waits for the least number of cycles that is not less than asked for, as long as the product is exact and the result fits 32 bits (for the units a constant
may be given in). -/
theorem C169_const {rnd : ℚ → ℚ} (hr : DoubleRounding rnd) {f n d : ℕ} (hd : d = 1000 ∨ d = 1000000 ∨ d = 1000000000) (hf : f ≤ 2 ^ 32) (hn : n < 2 ^ 32) (hp : f * n < 2 ^ 52)
    (hfit : f * n ≤ (2 ^ 32 - 1) * d) : ∃ c, avrConst rnd f n d = some c ∧ asked f n d ≤ c ∧ (c : ℚ) < asked f n d + 1 := by
  have hr1 : rnd (rnd f * rnd n) = ((f * n : ℕ) : ℚ) := by
    rw [hr.nat f (by omega), hr.nat n (by omega), ← Nat.cast_mul, hr.nat _ (by omega)]
  have ha : asked f n d = ((f * n : ℕ) : ℚ) / d := by unfold asked; push_cast; ring
  obtain ⟨h1, h2, h3⟩ := ceil_exact hr (a := f * n) (d := d) (by omega) (by omega) hp hfit
  refine ⟨_, ?_, by rw [ha]; exact h2, by rw [ha]; exact h3⟩
  unfold avrConst
  simp only [hr1]
  rw [if_pos h1]

-- a second at 16 MHz; 100 ns at 8 MHz
example : avrConst id 16000000 1000000 1000000 = some 16000000 ∧ avrConst id 8000000 100 1000000000 = some 1 := by decide +kernel

/-- C169: of a number of nanoseconds that is not constant, with loops of four cycles, an AVR waits never longer than asked for, and for more than half of it but for one loop. -/
theorem C169_ns_partial {f ns : ℕ} (h0 : 0 < f) (hf : f ≤ 32000000) (hns : ns ≤ 1000000) :
    ((4 * avrNsLoops f ns : ℕ) : ℚ) ≤ asked f ns 1000000000 ∧ (asked f ns 1000000000 - 4 * 2) / 2 < ((4 * avrNsLoops f ns : ℕ) : ℚ) := by
  set q := 4000000000 / f with hq
  have hF : (0 : ℚ) < f := by exact_mod_cast h0
  have hq125 : 125 ≤ q := by
    rw [hq, Nat.le_div_iff_mul_le h0]; omega
  have hlt : q < 2 ^ avrShift f := Nat.lt_size_self q
  have hle : 2 ^ avrShift f ≤ 2 * q := by
    have hs : 0 < avrShift f := Nat.size_pos.2 (by omega)
    have : 2 ^ (avrShift f - 1) ≤ q := Nat.lt_size.1 (by unfold avrShift at hs ⊢; rw [← hq] at hs ⊢; omega)
    have e : avrShift f = (avrShift f - 1) + 1 := by omega
    rw [e, pow_succ]; omega
  have hloops : avrNsLoops f ns = ns / 2 ^ avrShift f := by
    unfold avrNsLoops
    apply Nat.mod_eq_of_lt
    rw [Nat.div_lt_iff_lt_mul (by positivity)]
    calc ns < 2 ^ 16 * 125 := by omega
      _ ≤ 2 ^ 16 * 2 ^ avrShift f := Nat.mul_le_mul_left _ (by omega)
  rw [hloops]
  set S := 2 ^ avrShift f with hS
  have hS0 : 0 < S := by positivity
  have hd := Nat.div_add_mod ns S
  have hm := Nat.mod_lt ns hS0
  -- a loop in nanoseconds is less than `S`, and `S` at most twice it
  have g1 : 4000000000 < S * f := by
    have h1 : 4000000000 < f * (q + 1) := Nat.lt_mul_div_succ _ h0
    calc 4000000000 < f * (q + 1) := h1
      _ ≤ f * S := Nat.mul_le_mul_left _ hlt
      _ = S * f := mul_comm _ _
  have g2 : S * f ≤ 8000000000 := by
    calc S * f ≤ 2 * q * f := Nat.mul_le_mul_right _ hle
      _ = 2 * (q * f) := by ring
      _ ≤ 2 * 4000000000 := Nat.mul_le_mul_left _ (Nat.div_mul_le_self _ _)
      _ = _ := by norm_num
  have g1' : (4000000000 : ℚ) < S * f := by exact_mod_cast g1
  have g2' : (S : ℚ) * f ≤ 8000000000 := by exact_mod_cast g2
  have hd' : (S : ℚ) * ((ns / S : ℕ) : ℚ) + ((ns % S : ℕ) : ℚ) = ns := by exact_mod_cast hd
  have hm' : ((ns % S : ℕ) : ℚ) < S := by exact_mod_cast hm
  have hm0 : (0 : ℚ) ≤ ((ns % S : ℕ) : ℚ) := by positivity
  have hN : (0 : ℚ) ≤ ((ns / S : ℕ) : ℚ) := by positivity
  unfold asked
  push_cast
  rw [← hd']
  generalize ((ns / S : ℕ) : ℚ) = N at *
  generalize ((ns % S : ℕ) : ℚ) = R at *
  constructor
  · rw [le_div_iff₀ (by norm_num)]
    nlinarith [mul_le_mul_of_nonneg_left g1'.le hN, mul_nonneg hm0 hF.le]
  · rw [div_lt_iff₀ (by norm_num), sub_lt_iff_lt_add, div_lt_iff₀ (by norm_num)]
    nlinarith [mul_le_mul_of_nonneg_left g2' hN, mul_lt_mul_of_pos_right hm' hF]

-- 781 us for a millisecond at 20 MHz
example : 4 * avrNsLoops 20000000 1000000 = 15624 ∧ (15624 : ℚ) / 20000000 * 1000000 = 781.2 := ⟨rfl, by norm_num⟩

/-- C169: so of nanoseconds that are not constant, the loops last shorter than asked for, always. -/
theorem C169_ns_counterexample {f ns : ℕ} (h0 : 0 < f) (h1 : 0 < ns) : ((4 * avrNsLoops f ns : ℕ) : ℚ) < asked f ns 1000000000 := by
  rcases Nat.eq_zero_or_pos (avrNsLoops f ns) with h | h
  · rw [h]; unfold asked; push_cast
    have : (0 : ℚ) < f := by exact_mod_cast h0
    have : (0 : ℚ) < ns := by exact_mod_cast h1
    simp; positivity
  · set q := 4000000000 / f with hq
    have hlt : q < 2 ^ avrShift f := Nat.lt_size_self q
    have g1 : 4000000000 < 2 ^ avrShift f * f := by
      calc 4000000000 < f * (q + 1) := Nat.lt_mul_div_succ _ h0
        _ ≤ f * 2 ^ avrShift f := Nat.mul_le_mul_left _ hlt
        _ = _ := mul_comm _ _
    have h2 : avrNsLoops f ns * 2 ^ avrShift f ≤ ns := by
      calc _ ≤ ns / 2 ^ avrShift f * 2 ^ avrShift f := Nat.mul_le_mul_right _ (Nat.mod_le _ _)
        _ ≤ ns := Nat.div_mul_le_self _ _
    have h3 : 4 * avrNsLoops f ns * 1000000000 < ns * f := by
      calc 4 * avrNsLoops f ns * 1000000000 = avrNsLoops f ns * 4000000000 := by ring
        _ < avrNsLoops f ns * (2 ^ avrShift f * f) := Nat.mul_lt_mul_of_pos_left g1 h
        _ = avrNsLoops f ns * 2 ^ avrShift f * f := by ring
        _ ≤ ns * f := Nat.mul_le_mul_right _ h2
    have h3' : ((4 * avrNsLoops f ns : ℕ) : ℚ) * 1000000000 < ns * f := by exact_mod_cast h3
    unfold asked
    rw [lt_div_iff₀ (by norm_num)]
    exact_mod_cast h3

private theorem avr_iff {c : ℕ} (hc : 0 < c) : ∀ (x : ℕ) (k : ℕ), AvrLoops c x k ↔ k = (x + c - 1) / c := by
  have hneg : ∀ (y : ℤ) (k : ℕ), y ≤ 0 → (AvrLoops c y k ↔ k = 0) := by
    intro y k hy
    constructor
    · intro h
      cases h with
      | done _ => rfl
      | again h _ => omega
    · rintro rfl; exact .done hy
  intro x
  induction x using Nat.strong_induction_on with
  | _ x ih =>
    intro k
    rcases Nat.eq_zero_or_pos x with rfl | hx
    · rw [hneg _ _ (by simp)]
      have : (0 + c - 1) / c = 0 := Nat.div_eq_of_lt (by omega)
      rw [this]
    · by_cases h : x ≤ c
      · have : (x + c - 1) / c = 1 := by
          rw [Nat.div_eq_iff hc]; omega
        rw [this]
        constructor
        · intro hl
          cases hl with
          | done h => omega
          | again _ h2 => rw [(hneg _ _ (by omega)).1 h2]
        · rintro rfl
          exact .again (by omega) ((hneg _ _ (by omega)).2 rfl)
      · have e : (x + c - 1) / c = (x - c + c - 1) / c + 1 := by
          rw [← Nat.add_div_right _ hc]; congr 1; omega
        have es : (x : ℤ) - c = ((x - c : ℕ) : ℤ) := by omega
        constructor
        · intro hl
          cases hl with
          | done h => omega
          | again _ h2 => rw [es] at h2; rw [(ih (x - c) (by omega) _).1 h2, e]
        · rintro rfl
          rw [e]
          refine .again (by omega) ?_
          rw [es]
          exact (ih (x - c) (by omega) _).2 rfl

private theorem toInt_small {us : ℕ} (h : us < 2 ^ 31) : (BitVec.ofNat 32 us).toInt = us := by
  rw [BitVec.toInt_eq_toNat_cond]
  simp only [BitVec.toNat_ofNat]
  split <;> omega

/-- C169: up to 6 MHz the loop of `delay_us` takes off the MHz in each pass, where it should take off the microseconds a pass takes: the passes are `us / MHz`, rounded up. If a pass takes
`over` cycles, the delay is `over / MHz²` times as long as asked for. -/
theorem C169_slow {f us over : ℕ} (hf : 1000000 ≤ f) (hu : us < 2 ^ 31) : ∃ k, avrUsSlow f us k ∧ (∀ k', avrUsSlow f us k' → k' = k) ∧
    over * us ≤ over * k * (f / 1000000) ∧ over * k * (f / 1000000) ≤ over * (us + f / 1000000) := by
  have hc : 0 < f / 1000000 := Nat.div_pos hf (by norm_num)
  have hiff := avr_iff hc us
  unfold avrUsSlow
  rw [toInt_small hu]
  refine ⟨_, (hiff _).2 rfl, fun k' h => (hiff k').1 h, ?_, ?_⟩
  · rw [mul_assoc]
    apply Nat.mul_le_mul_left
    have := Nat.div_add_mod (us + f / 1000000 - 1) (f / 1000000)
    have := Nat.mod_lt (us + f / 1000000 - 1) hc
    rw [mul_comm]; omega
  · rw [mul_assoc]
    apply Nat.mul_le_mul_left
    calc _ ≤ us + f / 1000000 - 1 := Nat.div_mul_le_self _ _
      _ ≤ _ := by omega

/-- C169: so at 6 MHz a delay of 120 us is too short unless a pass takes 36 cycles or more. -/
theorem C169_short_counterexample {over : ℕ} (ho : over < 36) : avrUsSlow 6000000 120 20 ∧ ((over * 20 : ℕ) : ℚ) < asked 6000000 120 1000000 := by
  refine ⟨?_, ?_⟩
  · unfold avrUsSlow
    rw [toInt_small (by norm_num)]
    exact (avr_iff (by norm_num) 120 20).2 rfl
  · have : ((over * 20 : ℕ) : ℚ) < 720 := by exact_mod_cast (by omega : over * 20 < 720)
    refine lt_of_lt_of_le this ?_
    norm_num [asked]

/-- C169: below 1 MHz nothing is taken off and `delay_us` never returns. -/
theorem C169_hang_counterexample {f us : ℕ} (hf : f < 1000000) (h0 : 0 < us) (hu : us < 2 ^ 31) (k : ℕ) : ¬ avrUsSlow f us k := by
  unfold avrUsSlow
  rw [toInt_small hu, Nat.div_eq_of_lt hf]
  induction k with
  | zero => intro h; cases h with | done h => omega
  | succ k ih => intro h; cases h with | again _ h2 => exact ih (by simpa using h2)

/-- C169: above 6 MHz, with six cycles for the loop itself, and ten for the loop of `delay_ms`, delays of numbers that are not constant are exact at a whole number of MHz, and otherwise shorter by less
than one cycle for each microsecond or millisecond. -/
theorem C169_fast_partial {f : ℕ} (hf : 6000000 < f) (us ms : ℕ) :
    ((avrUsFast f 6 us : ℕ) : ℚ) ≤ asked f us 1000000 ∧ asked f us 1000000 - us ≤ (avrUsFast f 6 us : ℕ) ∧ (1000000 ∣ f → ((avrUsFast f 6 us : ℕ) : ℚ) = asked f us 1000000) ∧
    ((avrMs f 10 ms : ℕ) : ℚ) ≤ asked f ms 1000 ∧ asked f ms 1000 - ms ≤ (avrMs f 10 ms : ℕ) ∧ (1000 ∣ f → ((avrMs f 10 ms : ℕ) : ℚ) = asked f ms 1000) := by
  have key : ∀ n d : ℕ, 0 < d → ((n * (f / d) : ℕ) : ℚ) ≤ asked f n d ∧ asked f n d - n ≤ (n * (f / d) : ℕ) ∧ (d ∣ f → ((n * (f / d) : ℕ) : ℚ) = asked f n d) := by
    intro n d hd
    have hD : (0 : ℚ) < d := by exact_mod_cast hd
    have hle : ((f / d : ℕ) : ℚ) ≤ (f : ℚ) / d := Nat.cast_div_le
    have hlt : (f : ℚ) / d - 1 ≤ ((f / d : ℕ) : ℚ) := by
      rw [sub_le_iff_le_add, div_le_iff₀ hD]
      have := Nat.lt_mul_div_succ f hd
      have : (f : ℚ) < ((d * (f / d + 1) : ℕ) : ℚ) := by exact_mod_cast this
      push_cast at this
      linarith [mul_comm (d : ℚ) (((f / d : ℕ) : ℚ) + 1)]
    have hn : (0 : ℚ) ≤ n := by positivity
    have e : asked f n d = n * ((f : ℚ) / d) := by unfold asked; ring
    refine ⟨?_, ?_, fun hdvd => ?_⟩
    · rw [e]; push_cast; exact mul_le_mul_of_nonneg_left hle hn
    · rw [e]; push_cast
      have := mul_le_mul_of_nonneg_left hlt hn
      linarith
    · rw [e]; push_cast; rw [Nat.cast_div hdvd hD.ne']
  have hm : 6 ≤ f / 1000000 := by rw [Nat.le_div_iff_mul_le (by norm_num)]; omega
  have hk : 10 ≤ f / 1000 := by rw [Nat.le_div_iff_mul_le (by norm_num)]; omega
  have e1 : avrUsFast f 6 us = us * (f / 1000000) := by unfold avrUsFast; congr 1; omega
  have e2 : avrMs f 10 ms = ms * (f / 1000) := by unfold avrMs; congr 1; omega
  rw [e1, e2]
  obtain ⟨a, b, c⟩ := key us 1000000 (by norm_num)
  obtain ⟨a', b', c'⟩ := key ms 1000 (by norm_num)
  exact ⟨a, b, c, a', b', c'⟩

-- five percent short at 7.3728 MHz
example : avrUsFast 7372800 6 1000 = 7000 ∧ asked 7372800 1000 1000000 = 7372.8 := ⟨rfl, by norm_num [asked]⟩

end Props.Delay
