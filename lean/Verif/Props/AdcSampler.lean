import Verif.Model.AdcSampler
import Verif.Spec.AdcSampler
import Mathlib.Data.Int.ModEq
import Mathlib.Tactic.Ring
set_option autoImplicit false

/-!
# C186, C187: readouts of the ADC sampler
-/

namespace Props.AdcSampler

open Modm.AdcSampler Spec.AdcSampler Finset

/-- A configuration which compiles, whose readout has not so many samples that their count overflows, and whose sums
fit in 32 bits. -/
structure Sane (c : Cfg) : Prop where
  channels : 1 ≤ c.channels ∧ c.channels ≤ 255
  over : 1 ≤ c.over
  bits : 2 ^ c.res * c.over < 2 ^ 32
  count : c.over * c.channels < 2 ^ 32 - 1
  notByte : c.over * c.channels ≠ 2 ^ 8 - 1
  notWord : c.over * c.channels ≠ 2 ^ 16 - 1

private theorem total_eq {c : Cfg} (h : Sane c) : c.total = c.over * c.channels := by
  have := h.count
  unfold Cfg.total
  exact Nat.mod_eq_of_lt (by omega)

private theorem sample_room {c : Cfg} (h : Sane c) : c.total + 1 < 2 ^ c.sampleBits := by
  have h1 := h.count
  have h2 := h.notByte
  have h3 := h.notWord
  have h4 := total_eq h
  rw [← h4] at h1 h2 h3
  unfold Cfg.sampleBits
  split
  · split <;> omega
  · omega

private theorem data_room {c : Cfg} (h : Sane c) : 2 ^ c.res * c.over ≤ 2 ^ c.dataBits := by
  have h1 := h.bits
  have h2 : 2 ^ c.res < 2 ^ 32 := by
    have h3 := h.over
    have h4 := Nat.le_mul_of_pos_right (2 ^ c.res) h3
    omega
  unfold Cfg.dataBits
  simp only
  rw [Nat.mod_eq_of_lt h2, Nat.mod_eq_of_lt h1]
  split
  · split <;> omega
  · omega

/-- What an element has after `k` conversions: set anew while the count is at most the number of channels. -/
private def acc (v : Nat → Nat) (c : Nat) (d : Nat → Nat) : Nat → Nat → Nat
  | 0, i => d i
  | k + 1, i => if k % c = i then (if k ≤ c then 0 else acc v c d k i) + v k else acc v c d k i

private theorem acc_stable (v : Nat → Nat) (c : Nat) (d : Nat → Nat) (i b : Nat) (hb : b % c = i) :
    ∀ m, m < c → acc v c d (b + 1 + m) i = acc v c d (b + 1) i := by
  intro m
  induction m with
  | zero => intro _; rfl
  | succ m ih =>
    intro hm
    have hne : (b + 1 + m) % c ≠ i := by
      intro he
      have e1 : (b + 1 + m) % c = b % c := by rw [he, hb]
      have e2 := (Nat.modEq_iff_dvd' (show b ≤ b + 1 + m by omega)).mp (show Nat.ModEq c b (b + 1 + m) from e1.symm)
      have e3 : b + 1 + m - b = m + 1 := by omega
      rw [e3] at e2
      exact absurd (Nat.le_of_dvd (by omega) e2) (by omega)
    have : acc v c d (b + 1 + (m + 1)) i = acc v c d (b + 1 + m) i := by
      show acc v c d (b + 1 + m + 1) i = _
      rw [acc, if_neg hne]
    rw [this, ih (by omega)]

/-- From the last conversion which sets the element anew on, it is the sum. -/
private theorem acc_sum (v : Nat → Nat) (c : Nat) (d : Nat → Nat) (i f : Nat) (hf : f % c = i)
    (h0 : f ≤ c) (h1 : c < f + c) : ∀ r, acc v c d (f + r * c + 1) i = ∑ t ∈ range (r + 1), v (f + t * c) := by
  intro r
  induction r with
  | zero =>
    have : f + 0 * c = f := by omega
    rw [this, acc, if_pos hf, if_pos h0]
    simp
  | succ r ih =>
    have hm : (f + (r + 1) * c) % c = i := by rw [Nat.add_mul_mod_self_right]; exact hf
    have hle : ¬ f + (r + 1) * c ≤ c := by
      have : (r + 1) * c = r * c + c := by ring
      have h2 : 0 ≤ r * c := Nat.zero_le _
      omega
    have hb : (f + r * c) % c = i := by rw [Nat.add_mul_mod_self_right]; exact hf
    have hst := acc_stable v c d i (f + r * c) hb (c - 1) (by omega)
    have he : f + r * c + 1 + (c - 1) = f + (r + 1) * c := by
      have : (r + 1) * c = r * c + c := by ring
      omega
    rw [he] at hst
    rw [acc, if_pos hm, if_neg hle, hst, ih, ← Finset.sum_range_succ]

private theorem first_mod {c over i : Nat} (hi : i < c) : first c over i % c = i := by
  unfold first
  split
  · rename_i h; rw [h.2, Nat.mod_self]
  · exact Nat.mod_eq_of_lt hi

private theorem sum_le (v : Nat → Nat) (M f c n : Nat) (hv : ∀ k, v k ≤ M) :
    ∑ t ∈ range n, v (f + t * c) ≤ n * M := by
  induction n with
  | zero => simp
  | succ n ih =>
    rw [Finset.sum_range_succ]
    have := hv (f + n * c)
    have e : (n + 1) * M = n * M + M := by ring
    omega

/-- What is added never exceeds `over` samples. -/
private theorem acc_bound (v : Nat → Nat) (c n M : Nat) (d : Nat → Nat) (hc : 1 ≤ c) (hn : 1 < n) (hv : ∀ k, v k ≤ M)
    (k : Nat) (hk : k ≤ n * c) : (if k ≤ c then 0 else acc v c d k (k % c)) + v k ≤ n * M := by
  by_cases h : k ≤ c
  · rw [if_pos h]
    have := hv k
    have e : 1 * M ≤ n * M := Nat.mul_le_mul_right M (by omega)
    omega
  · rw [if_neg h]
    have hi : k % c < c := Nat.mod_lt _ (by omega)
    have key : ∀ f r, f % c = k % c → f ≤ c → 0 < f → k = f + r * c → r + 1 ≤ n →
        acc v c d k (k % c) + v k ≤ n * M := by
      intro f r hf h0 h1 hkr hr
      have e1 := acc_sum v c d (k % c) f hf h0 (by omega) r
      rw [← hkr, acc, if_pos rfl, if_neg h] at e1
      rw [e1]
      exact le_trans (sum_le v M f c (r + 1) hv) (Nat.mul_le_mul_right M hr)
    have hdiv := Nat.div_add_mod k c
    by_cases hz : k % c = 0
    · have hq : 1 ≤ k / c := Nat.div_pos (by omega) (by omega)
      refine key c (k / c - 1) (by rw [Nat.mod_self, hz]) (le_refl c) (by omega) ?_ ?_
      · have e : c + (k / c - 1) * c = c * (k / c) := by
          obtain ⟨q, hq'⟩ : ∃ q, k / c = q + 1 := ⟨k / c - 1, by omega⟩
          rw [hq']; simp only [Nat.add_sub_cancel]; ring
        rw [e]; omega
      · have : k / c ≤ n := by
          have := Nat.div_le_div_right (c := c) hk
          rwa [Nat.mul_div_cancel _ (by omega : 0 < c)] at this
        omega
    · refine key (k % c) (k / c) (Nat.mod_mod _ _) (by omega) (by omega) ?_ ?_
      · rw [Nat.mul_comm (k / c) c]; omega
      · have : k / c < n := by
          by_contra hcon
          have h2 : n * c ≤ c * (k / c) := by rw [Nat.mul_comm c]; exact Nat.mul_le_mul_right c (by omega)
          omega
        omega

private theorem add_acc (c : Cfg) (v d : Nat → Nat) (k : Nat) (l : List Nat)
    (hb : (if k ≤ c.channels then 0 else acc v c.channels d k (k % c.channels)) + v k < 2 ^ c.dataBits) :
    addSample c (v k) ⟨k, k % c.channels, false, acc v c.channels d k, l⟩ =
      ⟨k, k % c.channels, false, acc v c.channels d (k + 1), l⟩ := by
  unfold addSample setData
  by_cases hkc : k ≤ c.channels
  · simp only [hkc, if_true] at hb ⊢
    simp only [St.mk.injEq, true_and, and_true]
    funext i
    rw [acc, Nat.mod_eq_of_lt hb]
    by_cases hi : i = k % c.channels
    · simp [hi, hkc]
    · simp [hi, Ne.symm hi]
  · simp only [hkc, if_false] at hb ⊢
    simp only [St.mk.injEq, true_and, and_true]
    funext i
    rw [acc, Nat.mod_eq_of_lt hb]
    by_cases hi : i = k % c.channels
    · simp [hi, hkc]
    · simp [hi, Ne.symm hi]

private theorem next_index {k n : Nat} (hn : 1 ≤ n) :
    (if k % n + 1 ≥ n then 0 else k % n + 1) = (k + 1) % n := by
  have hlt : k % n < n := Nat.mod_lt _ (by omega)
  have e : (k + 1) % n = (k % n + 1) % n := by rw [Nat.mod_add_mod]
  rw [e]
  split
  · have : k % n + 1 = n := by omega
    rw [this, Nat.mod_self]
  · exact (Nat.mod_eq_of_lt (by omega)).symm

/-- Between the first conversion and the last. -/
private theorem running {c : Cfg} (h : Sane c) (ho : 1 < c.over) (map v : Nat → Nat) (hv : ∀ k, v k < 2 ^ c.res)
    (s : St) (hs : s.samples = 0) : ∃ s1, startReadout c map s = some (true, s1) ∧
    ∀ k, k ≤ c.over * c.channels →
      interrupts c map v s1 k = some ⟨k, k % c.channels, false, acc v c.channels s.data k,
        s.started ++ channels map c.channels (k + 1)⟩ := by
  have hc := h.channels
  refine ⟨⟨0, 0, false, s.data, s.started ++ [map 0]⟩, ?_, ?_⟩
  · unfold startReadout convert
    rw [if_neg (by omega)]
    simp only
    rw [if_pos (by omega)]
    simp [hs]
  · intro k
    induction k with
    | zero =>
      intro _
      simp only [interrupts, Option.some.injEq, St.mk.injEq, true_and, Nat.zero_mod]
      exact ⟨rfl, by simp [channels]⟩
    | succ k ih =>
      intro hk
      rw [interrupts, ih (by omega)]
      simp only [Option.bind]
      have hlt : k % c.channels < c.channels := Nat.mod_lt _ (by omega)
      have hb := acc_bound v c.channels c.over (2 ^ c.res - 1) s.data hc.1 ho
        (fun j => by have := hv j; omega) k (by omega)
      have hroom := data_room h
      have hb2 : (if k ≤ c.channels then 0 else acc v c.channels s.data k (k % c.channels)) + v k < 2 ^ c.dataBits := by
        have e : c.over * (2 ^ c.res - 1) < c.over * 2 ^ c.res := by
          have : 0 < 2 ^ c.res := Nat.two_pow_pos _
          exact Nat.mul_lt_mul_of_pos_left (by omega) (by omega)
        rw [Nat.mul_comm c.over (2 ^ c.res)] at e
        omega
      have hsr := sample_room h
      have htot := total_eq h
      have hadd : addSample c (v k) ⟨k, k % c.channels, false, acc v c.channels s.data k,
          s.started ++ channels map c.channels (k + 1)⟩ =
          ⟨k, k % c.channels, false, acc v c.channels s.data (k + 1),
            s.started ++ channels map c.channels (k + 1)⟩ := add_acc c v s.data k _ hb2
      have hmod : (k + 1) % 2 ^ c.sampleBits = k + 1 := Nat.mod_eq_of_lt (by omega)
      have hmod2 : (k % c.channels + 1) % 256 = k % c.channels + 1 := Nat.mod_eq_of_lt (by omega)
      unfold sampleAdc
      simp only
      rw [if_pos hlt, if_pos ho, hadd]
      simp only [hmod, hmod2]
      rw [if_pos (by omega)]
      have hnext := next_index (k := k) hc.1
      have hl : channels map c.channels (k + 1) ++ [map ((k + 1) % c.channels)] = channels map c.channels (k + 2) := by
        simp [channels, List.range_succ]
      have hi' : (k + 1) % c.channels < c.channels := Nat.mod_lt _ (by omega)
      unfold convert
      by_cases hge : k % c.channels + 1 ≥ c.channels
      · rw [if_pos hge] at hnext
        simp only [hge, if_true]
        rw [if_pos (by omega)]
        simp only [List.append_assoc, Option.some.injEq, St.mk.injEq, true_and]
        rw [hnext]
        exact ⟨rfl, by rw [hl]⟩
      · rw [if_neg hge] at hnext
        simp only [hge, if_false]
        rw [if_pos (by omega)]
        simp only [List.append_assoc, Option.some.injEq, St.mk.injEq, true_and]
        rw [hnext]
        exact ⟨rfl, by rw [hl]⟩

/-- With one sample for each channel. -/
private theorem plain {c : Cfg} (h : Sane c) (ho : c.over = 1) (map v : Nat → Nat) (hv : ∀ k, v k < 2 ^ c.res)
    (s : St) (hs : s.samples = 0) : ∃ s1, startReadout c map s = some (true, s1) ∧
    ∀ k, k < c.channels →
      interrupts c map v s1 k = some ⟨0, k, false, fun i => if i < k then v i else s.data i,
        s.started ++ channels map c.channels (k + 1)⟩ := by
  have hc := h.channels
  refine ⟨⟨0, 0, false, s.data, s.started ++ [map 0]⟩, ?_, ?_⟩
  · unfold startReadout convert
    rw [if_neg (by omega)]
    simp only
    rw [if_pos (by omega)]
    simp [hs]
  · intro k
    induction k with
    | zero =>
      intro _
      simp [interrupts, channels]
    | succ k ih =>
      intro hk
      rw [interrupts, ih (by omega)]
      simp only [Option.bind]
      have hroom := data_room h
      rw [ho, Nat.mul_one] at hroom
      have hmod : v k % 2 ^ c.dataBits = v k := Nat.mod_eq_of_lt (by have := hv k; omega)
      have hmod2 : (k + 1) % 256 = k + 1 := Nat.mod_eq_of_lt (by omega)
      have hl : channels map c.channels (k + 1) ++ [map (k + 1)] = channels map c.channels (k + 2) := by
        have : (k + 1) % c.channels = k + 1 := Nat.mod_eq_of_lt hk
        simp [channels, List.range_succ, this]
      unfold sampleAdc
      simp only
      rw [if_pos (by omega), if_neg (by omega)]
      simp only [setData, hmod, hmod2]
      rw [if_pos hk]
      unfold convert
      simp only
      rw [if_pos hk]
      simp only [List.append_assoc, Option.some.injEq, St.mk.injEq, true_and]
      refine ⟨?_, by rw [hl]⟩
      funext i
      by_cases h1 : i = k
      · subst h1; simp
      · by_cases h2 : i < k
        · rw [if_neg h1, if_pos h2, if_pos (by omega)]
        · rw [if_neg h1, if_neg h2, if_neg (by omega)]

private theorem first_lt {c over i r : Nat} (hi : i < c) (hr : r < over) :
    first c over i + r * c < conversions c over := by
  have e : (r + 1) * c ≤ over * c := Nat.mul_le_mul_right c hr
  have e2 : (r + 1) * c = r * c + c := by ring
  unfold first conversions
  by_cases h1 : over > 1
  · rw [if_pos h1]
    by_cases h0 : i = 0
    · rw [if_pos ⟨h1, h0⟩]; omega
    · rw [if_neg (fun h => h0 h.2)]; omega
  · rw [if_neg h1, if_neg (fun h => h1 h.1)]
    have : r = 0 := by omega
    subst this
    omega

/-- C186 (partial: unless the samples of a readout are 255, 65535 or 2^32 and so on, and with sums of less than 32 bits):
a readout which is started while none is running finishes with the conversion it is to finish with and not before; its
conversions are those of the mapped channels in their order, over and over; and each element of the data is the mean
of as many conversions of its own channel as are asked for, in consecutive rounds, rounded down. -/
theorem C186_readout_partial {c : Cfg} (h : Sane c) (map v : Nat → Nat) (hv : ∀ k, v k < 2 ^ c.res)
    (s : St) (hs : s.samples = 0) :
    ∃ s1 s2, startReadout c map s = some (true, s1) ∧
      interrupts c map v s1 (conversions c.channels c.over) = some s2 ∧
      s2.newData = true ∧ s2.samples = 0 ∧
      (∀ i, i < c.channels → s2.data i = mean v (first c.channels c.over i) c.channels c.over) ∧
      (∀ i r, i < c.channels → r < c.over →
        first c.channels c.over i + r * c.channels < conversions c.channels c.over ∧
        (channels map c.channels (conversions c.channels c.over))[first c.channels c.over i + r * c.channels]? =
          some (map i)) ∧
      s2.started = s.started ++ channels map c.channels (conversions c.channels c.over) ∧
      ∀ k, k < conversions c.channels c.over → ∃ s', interrupts c map v s1 k = some s' ∧ s'.newData = false := by
  have hc := h.channels
  have hov := h.over
  have hchan : ∀ i r, i < c.channels → r < c.over →
      first c.channels c.over i + r * c.channels < conversions c.channels c.over ∧
      (channels map c.channels (conversions c.channels c.over))[first c.channels c.over i + r * c.channels]? =
        some (map i) := by
    intro i r hi hr
    have hlt := first_lt (over := c.over) hi hr
    refine ⟨hlt, ?_⟩
    unfold channels
    rw [List.getElem?_map, List.getElem?_range hlt]
    simp only [Option.map_some, Nat.add_mul_mod_self_right, first_mod hi]
  by_cases ho : 1 < c.over
  · obtain ⟨s1, h1, hrun⟩ := running h ho map v hv s hs
    have htot := total_eq h
    have hsr := sample_room h
    have hconv : conversions c.channels c.over = c.over * c.channels + 1 := by unfold conversions; rw [if_pos ho]
    have hmz : (c.over * c.channels) % c.channels = 0 := Nat.mul_mod_left _ _
    have hb := acc_bound v c.channels c.over (2 ^ c.res - 1) s.data hc.1 ho
      (fun j => by have := hv j; omega) (c.over * c.channels) (le_refl _)
    have hroom := data_room h
    have hb2 : (if c.over * c.channels ≤ c.channels then 0 else acc v c.channels s.data (c.over * c.channels)
        ((c.over * c.channels) % c.channels)) + v (c.over * c.channels) < 2 ^ c.dataBits := by
      have e : c.over * (2 ^ c.res - 1) < c.over * 2 ^ c.res := by
        have : 0 < 2 ^ c.res := Nat.two_pow_pos _
        exact Nat.mul_lt_mul_of_pos_left (by omega) (by omega)
      rw [Nat.mul_comm c.over (2 ^ c.res)] at e
      omega
    refine ⟨s1, ⟨0, 0, true, fun i => if i < c.channels then acc v c.channels s.data (c.over * c.channels + 1) i / c.over
      else acc v c.channels s.data (c.over * c.channels + 1) i,
      s.started ++ channels map c.channels (c.over * c.channels + 1)⟩, h1, ?_, rfl, rfl, ?_, hchan, ?_, ?_⟩
    · rw [hconv, interrupts, hrun _ (le_refl _)]
      simp only [Option.bind]
      unfold sampleAdc
      simp only
      rw [if_pos (by omega), if_pos ho, add_acc c v s.data _ _ hb2]
      simp only
      rw [Nat.mod_eq_of_lt (by omega : c.over * c.channels + 1 < 2 ^ c.sampleBits), if_neg (by omega)]
    · intro i hi
      simp only [hi, if_true]
      unfold mean
      congr 1
      obtain ⟨n, hn⟩ : ∃ n, c.over = n + 1 := ⟨c.over - 1, by omega⟩
      have hcn : c.over * c.channels = n * c.channels + c.channels := by rw [hn]; ring
      by_cases h0 : i = 0
      · have hf : first c.channels c.over i = c.channels := by unfold first; rw [if_pos ⟨ho, h0⟩]
        have e := acc_sum v c.channels s.data i c.channels (by rw [Nat.mod_self, h0]) (le_refl _) (by omega) n
        rw [hf, hn, ← e, ← hn, hcn]
        congr 1
        omega
      · have hf : first c.channels c.over i = i := by unfold first; rw [if_neg (fun hh => h0 hh.2)]
        have e := acc_sum v c.channels s.data i i (Nat.mod_eq_of_lt hi) (by omega) (by omega) n
        have e2 := acc_stable v c.channels s.data i (i + n * c.channels)
          (by rw [Nat.add_mul_mod_self_right]; exact Nat.mod_eq_of_lt hi) (c.channels - i) (by omega)
        have e3 : i + n * c.channels + 1 + (c.channels - i) = c.over * c.channels + 1 := by omega
        rw [e3] at e2
        rw [hf, e2, e, hn]
    · rw [hconv]
    · intro k hk
      exact ⟨_, hrun k (by omega), rfl⟩
  · have ho1 : c.over = 1 := by omega
    obtain ⟨s1, h1, hrun⟩ := plain h ho1 map v hv s hs
    have hconv : conversions c.channels c.over = c.channels := by unfold conversions; rw [if_neg ho]
    have hroom := data_room h
    rw [ho1, Nat.mul_one] at hroom
    obtain ⟨m, hm⟩ : ∃ m, c.channels = m + 1 := ⟨c.channels - 1, by omega⟩
    refine ⟨s1, ⟨0, 0, true, fun i => if i < m + 1 then v i else s.data i,
      s.started ++ channels map c.channels c.channels⟩, h1, ?_, rfl, rfl, ?_, hchan, ?_, ?_⟩
    · rw [hconv]
      conv in interrupts _ _ _ _ _ => rw [hm]
      rw [interrupts, hrun m (by omega)]
      simp only [Option.bind]
      have hmod : v m % 2 ^ c.dataBits = v m := Nat.mod_eq_of_lt (by have := hv m; omega)
      unfold sampleAdc
      simp only
      rw [if_pos (by omega), if_neg (by omega)]
      simp only [setData, hmod]
      have hmod2 : ¬ (m + 1) % 256 < c.channels := by
        by_cases h255 : m + 1 = 256
        · omega
        · rw [Nat.mod_eq_of_lt (by omega)]; omega
      rw [if_neg hmod2]
      simp only [Option.some.injEq, St.mk.injEq, true_and]
      refine ⟨?_, by rw [← hm]⟩
      funext i
      by_cases h1 : i = m
      · subst h1; simp
      · by_cases h2 : i < m
        · rw [if_neg h1, if_pos h2, if_pos (by omega)]
        · rw [if_neg h1, if_neg h2, if_neg (by omega)]
    · intro i hi
      simp only [← hm, hi, if_true]
      unfold mean first
      rw [if_neg (fun hh => ho hh.1), ho1]
      simp
    · rw [hconv]
    · intro k hk
      exact ⟨_, hrun k (by omega), rfl⟩

/-- Three channels of 12 bits sampled 100 times each (`examples/stm32f4_discovery/adc/oversample`). -/
example : Sane ⟨3, 100, 12⟩ := ⟨by decide, by decide, by decide, by decide, by decide, by decide⟩

/-- Two channels, two samples each: the first conversion of the first channel counts for nothing. -/
example : ((startReadout ⟨2, 2, 12⟩ (fun i => 10 + i) (init (fun _ => 99))).bind (fun p =>
    interrupts ⟨2, 2, 12⟩ (fun i => 10 + i) (fun k => [1000, 7, 20, 8, 31].getD k 0) p.2 5)).map
      (fun s => (s.newData, s.data 0, s.data 1, s.started)) = some (true, 25, 7, [10, 11, 10, 11, 10]) := by
  decide +kernel

/-- C186 does not hold in general: with 255 samples the count, one byte, never exceeds them, and the readout never
finishes: here one channel sampled 255 times. -/
theorem C186_endless_counterexample (map v : Nat → Nat) (d : Nat → Nat) :
    ∃ s1, startReadout ⟨1, 255, 12⟩ map (init d) = some (true, s1) ∧
      ∀ k, ∃ s, interrupts ⟨1, 255, 12⟩ map v s1 k = some s ∧ s.newData = false := by
  refine ⟨⟨0, 0, false, d, [map 0]⟩, rfl, ?_⟩
  have key : ∀ k, ∃ s, interrupts ⟨1, 255, 12⟩ map v ⟨0, 0, false, d, [map 0]⟩ k = some s ∧ s.newData = false ∧
      s.index = 0 := by
    intro k
    induction k with
    | zero => exact ⟨_, rfl, rfl, rfl⟩
    | succ k ih =>
      obtain ⟨s, hs, hn, hi⟩ := ih
      rw [interrupts, hs]
      simp only [Option.bind]
      have ht : Cfg.total ⟨1, 255, 12⟩ = 255 := by decide
      have hb : Cfg.sampleBits ⟨1, 255, 12⟩ = 8 := by decide
      have hadd : (addSample ⟨1, 255, 12⟩ (v k) s).newData = false ∧ (addSample ⟨1, 255, 12⟩ (v k) s).index = 0 := by
        unfold addSample setData
        split <;> exact ⟨hn, hi⟩
      unfold sampleAdc
      rw [if_pos (by rw [hi]; decide), if_pos (by decide)]
      simp only [ht, hb]
      rw [if_pos (by omega)]
      simp only [hadd.2]
      rw [if_pos (by decide)]
      exact ⟨_, rfl, hadd.1, rfl⟩
  intro k
  obtain ⟨s, hs, hn, -⟩ := key k
  exact ⟨s, hs, hn⟩

/-- C187 (partial: with more than one sample for each channel, and once the first conversion is done): while a readout
runs another one is refused, and changes nothing. -/
theorem C187_refused_partial {c : Cfg} (h : Sane c) (ho : 1 < c.over) (map v : Nat → Nat) (hv : ∀ k, v k < 2 ^ c.res)
    (s : St) (hs : s.samples = 0) :
    ∃ s1, startReadout c map s = some (true, s1) ∧
      ∀ k, 0 < k → k < conversions c.channels c.over →
        ∃ s', interrupts c map v s1 k = some s' ∧ s'.newData = false ∧ startReadout c map s' = some (false, s') := by
  obtain ⟨s1, h1, hrun⟩ := running h ho map v hv s hs
  refine ⟨s1, h1, fun k hk hk2 => ?_⟩
  have hconv : conversions c.channels c.over = c.over * c.channels + 1 := by unfold conversions; rw [if_pos ho]
  refine ⟨_, hrun k (by omega), rfl, ?_⟩
  unfold startReadout
  rw [if_pos (by simpa using hk)]

example : Sane ⟨3, 32, 10⟩ ∧ 0 < 5 ∧ 5 < conversions 3 32 :=
  ⟨⟨by decide, by decide, by decide, by decide, by decide, by decide⟩, by decide, by decide⟩

/-- C187 does not hold in general: with one sample for each channel a readout is started while another one runs, after
any number of its conversions, and so it is before the first conversion of any readout. -/
theorem C187_refused_counterexample {c : Cfg} (h : Sane c) (map v : Nat → Nat) (hv : ∀ k, v k < 2 ^ c.res) (d : Nat → Nat) :
    ∃ s1, startReadout c map (init d) = some (true, s1) ∧
      ∀ k, (k = 0 ∨ c.over = 1) → k < c.channels →
        ∃ s', interrupts c map v s1 k = some s' ∧ s'.newData = false ∧
          ∃ s'', startReadout c map s' = some (true, s'') := by
  have hc := h.channels
  have again : ∀ s : St, s.samples = 0 → ∃ s'', startReadout c map s = some (true, s'') := by
    intro s hs
    refine ⟨⟨0, 0, false, s.data, s.started ++ [map 0]⟩, ?_⟩
    unfold startReadout convert
    rw [if_neg (by omega)]
    simp only
    rw [if_pos (by omega)]
    simp [hs]
  by_cases ho : 1 < c.over
  · obtain ⟨s1, h1, hrun⟩ := running h ho map v hv (init d) rfl
    refine ⟨s1, h1, fun k hk _ => ?_⟩
    have : k = 0 := by omega
    subst this
    exact ⟨_, hrun 0 (Nat.zero_le _), rfl, again _ rfl⟩
  · have := h.over
    obtain ⟨s1, h1, hrun⟩ := plain h (by omega) map v hv (init d) rfl
    exact ⟨s1, h1, fun k _ hk => ⟨_, hrun k hk, rfl, again _ rfl⟩⟩

end Props.AdcSampler
