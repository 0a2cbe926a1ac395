import Verif.Model.I2cTiming
import Mathlib.Tactic.Linarith
import Mathlib.Tactic.NormNum
import Mathlib.Tactic.FieldSimp
import Mathlib.Tactic.Positivity
import Mathlib.Tactic.Ring
import Mathlib.Tactic.IntervalCases

set_option autoImplicit false

/-! Timings of I2C: C321–C323. -/

namespace Props.I2cTiming

open Modm.I2cTiming

/-! ### What has been found -/

theorem findSome_mem {α β : Type} (l : List α) (f : α → Option β) (b : β) (h : l.findSome? f = some b) : ∃ a ∈ l, f a = some b :=
  List.exists_of_findSome?_eq_some h

theorem hold_spec (p : Params) (k : Nat) (d : Nat × Nat) (h : findHoldTimeSettings p k = some d) :
    d.1 < 16 ∧ d.2 < 16 ∧ sdaDelMinTime p ≤ d.1 * period p k ∧ d.1 * period p k ≤ sdaDelMaxTime p ∧
    p.rise + tSuDatMin (mode p) ≤ (d.2 + 1) * period p k := by
  unfold findHoldTimeSettings at h
  obtain ⟨a, ha, h1⟩ := findSome_mem _ _ _ h
  by_cases hc : (a : ℚ) * period p k < sdaDelMinTime p ∨ (a : ℚ) * period p k > sdaDelMaxTime p
  · rw [if_pos hc] at h1; cases h1
  · rw [if_neg hc] at h1
    obtain ⟨b, hb, h2⟩ := findSome_mem _ _ _ h1
    by_cases hs : ((b : ℚ) + 1) * period p k ≥ p.rise + tSuDatMin (mode p)
    · rw [if_pos hs] at h2
      injection h2 with h2
      subst h2
      rw [not_or, not_lt, not_lt] at hc
      exact ⟨List.mem_range.1 ha, List.mem_range.1 hb, hc.1, hc.2, hs⟩
    · rw [if_neg hs] at h2; cases h2

/-- the result of the search is one of the tries, with its error -/
structure Inv (p : Params) (b : Best) : Prop where
  found : b.found = true → b.timing ∈ tries p b.timing.1 ∧ b.error = speedError p b.timing ∧ b.error < p.tolerance
  none : b.found = false → b.error = 10000000000

theorem tries_fst (p : Params) (k : Nat) (c : Nat × Nat × Nat) (h : c ∈ tries p k) : c.1 = k := by
  unfold tries at h
  by_cases hn : (findHoldTimeSettings p k).isNone = true
  · rw [if_pos hn] at h; cases h
  · rw [if_neg hn] at h
    cases hm : minimumSclLowHigh p k with
    | none => rw [hm] at h; cases h
    | some x =>
      rw [hm] at h
      simp only [List.mem_map] at h
      obtain ⟨a, _, rfl⟩ := h
      rfl

theorem step_inv (p : Params) (b : Best) (c : Nat × Nat × Nat) (hb : Inv p b) (hc : c ∈ tries p c.1) : Inv p (step p b c) := by
  unfold step
  by_cases h : speedError p c < p.tolerance ∧ speedError p c ≤ b.error ∧ c.1 ≤ b.timing.1
  · rw [if_pos h]
    exact ⟨fun _ => ⟨hc, rfl, h.1⟩, fun h => by cases h⟩
  · rw [if_neg h]; exact hb

/-- what the loop over the tries for prescaler `k` does -/
theorem inner (p : Params) (htol : p.tolerance ≤ 10000000000) (k : Nat) : ∀ (L : List (Nat × Nat × Nat)) (b : Best), (∀ c ∈ L, c ∈ tries p k) →
    Inv p b → k ≤ b.timing.1 →
    Inv p (L.foldl (step p) b) ∧ k ≤ (L.foldl (step p) b).timing.1 ∧ (L.foldl (step p) b).error ≤ b.error ∧
    ∀ c ∈ L, speedError p c < p.tolerance → (L.foldl (step p) b).error ≤ speedError p c := by
  intro L
  induction L with
  | nil => intro b _ hb hk; exact ⟨hb, hk, le_refl _, by simp⟩
  | cons c L ih =>
    intro b hL hb hk
    have hck : c.1 = k := tries_fst p k c (hL c List.mem_cons_self)
    have hc := hL c List.mem_cons_self
    rw [← hck] at hc
    have hstep : k ≤ (step p b c).timing.1 ∧ (step p b c).error ≤ b.error ∧ (speedError p c < p.tolerance → (step p b c).error ≤ speedError p c) := by
      unfold step
      by_cases h : speedError p c < p.tolerance ∧ speedError p c ≤ b.error ∧ c.1 ≤ b.timing.1
      · rw [if_pos h]
        exact ⟨by simp [hck], h.2.1, fun _ => le_refl _⟩
      · rw [if_neg h]
        refine ⟨hk, le_refl _, ?_⟩
        intro ht
        by_contra hlt
        exact h ⟨ht, by linarith, by omega⟩
    obtain ⟨h1, h2, h3, h4⟩ := ih (step p b c) (fun d hd => hL d (List.mem_cons_of_mem _ hd)) (step_inv p b c hb hc) hstep.1
    rw [List.foldl_cons]
    refine ⟨h1, h2, le_trans h3 hstep.2.1, ?_⟩
    intro d hd ht
    rcases List.mem_cons.1 hd with rfl | hd
    · exact le_trans h3 (hstep.2.2 ht)
    · exact h4 d hd ht

theorem outer (p : Params) (htol : p.tolerance ≤ 10000000000) : ∀ (n : Nat) (b : Best), Inv p b → n ≤ b.timing.1 + 1 →
    Inv p ((List.range n).reverse.foldl (fun b k => (tries p k).foldl (step p) b) b) ∧
    ((List.range n).reverse.foldl (fun b k => (tries p k).foldl (step p) b) b).error ≤ b.error ∧
    ∀ k < n, ∀ c ∈ tries p k, speedError p c < p.tolerance →
      ((List.range n).reverse.foldl (fun b k => (tries p k).foldl (step p) b) b).error ≤ speedError p c := by
  intro n
  induction n with
  | zero => intro b hb _; exact ⟨hb, le_refl _, by intro k hk; omega⟩
  | succ n ih =>
    intro b hb hn
    obtain ⟨h1, h2, h3, h4⟩ := inner p htol n (tries p n) b (fun c hc => hc) hb (by omega)
    rw [List.range_succ, List.reverse_append, List.reverse_singleton, List.singleton_append, List.foldl_cons]
    obtain ⟨i1, i2, i3⟩ := ih _ h1 (by omega)
    refine ⟨i1, le_trans i2 h3, ?_⟩
    intro k hk c hc ht
    rcases Nat.lt_succ_iff_lt_or_eq.1 hk with h | rfl
    · exact i3 k h c hc ht
    · exact le_trans i2 (h4 c hc ht)

theorem search_inv (p : Params) (htol : p.tolerance ≤ 10000000000) : Inv p (search p) ∧
    ∀ k < 16, ∀ c ∈ tries p k, speedError p c < p.tolerance → (search p).error ≤ speedError p c := by
  obtain ⟨h1, _, h3⟩ := outer p htol 16 {} ⟨(by intro h; cases h), fun _ => rfl⟩ (by decide)
  exact ⟨h1, h3⟩

theorem tries_lt (p : Params) (b : Best) (L : List Nat) (hL : ∀ k ∈ L, k < 16) (hb : b.found = true → b.timing.1 < 16) :
    (L.foldl (fun b k => (tries p k).foldl (step p) b) b).found = true → (L.foldl (fun b k => (tries p k).foldl (step p) b) b).timing.1 < 16 := by
  induction L generalizing b with
  | nil => exact hb
  | cons k L ih =>
    rw [List.foldl_cons]
    apply ih _ (fun j hj => hL j (List.mem_cons_of_mem _ hj))
    have hk := hL k List.mem_cons_self
    have : ∀ (M : List (Nat × Nat × Nat)) (b : Best), (∀ c ∈ M, c.1 = k) → (b.found = true → b.timing.1 < 16) →
        (M.foldl (step p) b).found = true → (M.foldl (step p) b).timing.1 < 16 := by
      intro M
      induction M with
      | nil => intro b _ h; exact h
      | cons c M ihM =>
        intro b hM h
        rw [List.foldl_cons]
        apply ihM _ (fun d hd => hM d (List.mem_cons_of_mem _ hd))
        unfold step
        by_cases hc : speedError p c < p.tolerance ∧ speedError p c ≤ b.error ∧ c.1 ≤ b.timing.1
        · rw [if_pos hc]
          intro _
          rw [hM c List.mem_cons_self]
          exact hk
        · rw [if_neg hc]; exact h
    exact this (tries p k) b (fun c hc => tries_fst p k c hc) hb

/-! ### Specification: the I2C bus specification, in seconds -/

structure Limits where
  fall : ℚ
  rise : ℚ
  valid : ℚ
  setup : ℚ
  low : ℚ
  high : ℚ

def ns (x : ℚ) : ℚ := x / 1000000000

/-- Spec: standard mode to 100 kHz, fast mode to 400 kHz, fast mode plus to 1 MHz -/
def limits (target : Nat) : Limits :=
  if target ≤ 100000 then ⟨ns 300, ns 1000, ns 3450, ns 250, ns 4700, ns 4000⟩
  else if target ≤ 400000 then ⟨ns 300, ns 300, ns 900, ns 100, ns 1300, ns 600⟩
  else ⟨ns 120, ns 120, ns 450, ns 50, ns 500, ns 260⟩

/-- Spec: speeds for which the calculator and the specification agree about the mode -/
def Speed (target : Nat) : Prop := target ≤ 100000 ∨ (250000 ≤ target ∧ target ≤ 400000) ∨ (700000 ≤ target ∧ target ≤ 1000000)

theorem limits_mode (p : Params) (h : Speed p.target) : limits p.target =
    ⟨tFallMax (mode p), tRiseMax (mode p), tHdDatMax (mode p), tSuDatMin (mode p), tLowMin (mode p), tHighMin (mode p)⟩ := by
  unfold limits mode
  rcases h with h | h | h
  · rw [if_pos h, if_pos (by omega)]
    norm_num [ns, tFallMax, tRiseMax, tHdDatMax, tSuDatMin, tLowMin, tHighMin, pick]
  · rw [if_neg (by omega), if_pos h.2, if_neg (by omega), if_pos (by omega)]
    norm_num [ns, tFallMax, tRiseMax, tHdDatMax, tSuDatMin, tLowMin, tHighMin, pick]
  · rw [if_neg (by omega), if_neg (by omega), if_neg (by omega), if_neg (by omega)]
    norm_num [ns, tFallMax, tRiseMax, tHdDatMax, tSuDatMin, tLowMin, tHighMin, pick]

/-- Spec: one tick of the clock of the timing unit -/
def tick (p : Params) (t : Timings) : ℚ := (t.prescaler + 1) / p.clock
/-- Spec: delay of the inputs: analog filter (at least 50 ns), digital filter and two clocks of synchronisation -/
def sync (p : Params) : ℚ := (if p.analog then ns 50 else 0) + (p.dnf + 2) / p.clock
/-- Spec: the times that the clock line is low and high (reference manuals: SCLL, SCLH) -/
def lowTime (p : Params) (t : Timings) : ℚ := (t.sclLow + 1) * tick p t + sync p
def highTime (p : Params) (t : Timings) : ℚ := (t.sclHigh + 1) * tick p t + sync p

theorem sync_eq (p : Params) : sync p = syncTime p := by
  unfold sync syncTime filterDelay filterMin ns
  rw [add_div, add_assoc]

/-- the minimum of a counter: `⌈max (x / c - 1) y⌉` ticks and one more last at least `x` -/
theorem enough (c x y : ℚ) (n : Nat) (hc : 0 < c) (h : ⌈max (x / c - 1) y⌉.toNat ≤ n) : x ≤ ((n : ℚ) + 1) * c := by
  have h1 : ⌈max (x / c - 1) y⌉ ≤ (n : Int) := by omega
  have h2 : max (x / c - 1) y ≤ ((n : Int) : ℚ) := Int.ceil_le.1 h1
  have h3 : x / c - 1 ≤ (n : ℚ) := le_trans (le_max_left _ _) (by exact_mod_cast h2)
  have h4 : x / c ≤ (n : ℚ) + 1 := by linarith
  exact (div_le_iff₀ hc).1 h4

theorem tries_spec (p : Params) (hclk : 0 < p.clock) (k : Nat) (c : Nat × Nat × Nat) (h : c ∈ tries p k) :
    c.2.1 ≤ 255 ∧ c.2.2 ≤ 255 ∧ tLowMin (mode p) ≤ (c.2.1 + 1) * period p k + syncTime p ∧
    tHighMin (mode p) ≤ (c.2.2 + 1) * period p k + syncTime p := by
  have hper : 0 < period p k := by
    unfold period
    have : (0 : ℚ) < p.clock := by exact_mod_cast hclk
    positivity
  unfold tries at h
  by_cases hn : (findHoldTimeSettings p k).isNone = true
  · rw [if_pos hn] at h; cases h
  · rw [if_neg hn] at h
    cases hm : minimumSclLowHigh p k with
    | none => rw [hm] at h; cases h
    | some x =>
      rw [hm] at h
      simp only [List.mem_map, List.mem_filter, List.mem_range, decide_eq_true_eq] at h
      obtain ⟨a, ⟨ha, hlow⟩, rfl⟩ := h
      unfold minimumSclLowHigh at hm
      simp only at hm
      split at hm
      · cases hm
      · rename_i hle
        injection hm with hm
        rw [not_or] at hle
        subst hm
        simp only at hlow ⊢
        refine ⟨by omega, ?_, ?_, ?_⟩
        · unfold findBestSclHigh
          simp only
          omega
        · have := enough _ _ _ a hper hlow
          linarith
        · have hb : ∀ m mx, m ≤ findBestSclHigh p k a m mx := by
            intro m mx
            unfold findBestSclHigh
            simp only
            omega
          have := enough _ _ _ _ hper (hb ⌈max ((tHighMin (mode p) - syncTime p) / period p k - 1) ((1 / p.clock - syncTime p) / period p k - 1)⌉.toNat
            (min (maximumSclSum p k - a) 255))
          linarith

/-- **C321**. If the calculator has a result for clock and speed, then with these timings the bus has a speed that differs from the target by less than the
tolerance, the clock line is low and high for the time required by the bus specification, the data are stable for the required time
before the clock rises (with the given rise time), and all values fit into their fields. -/
theorem C321_timings (p : Params) (t : Timings) (hclk : 0 < p.clock) (hs : Speed p.target) (htol : p.tolerance ≤ 1) (h : calculateTimings p = some t) :
    |1 / (lowTime p t + highTime p t + p.rise + p.fall) / p.target - 1| < p.tolerance ∧
    (limits p.target).low ≤ lowTime p t ∧ (limits p.target).high ≤ highTime p t ∧
    p.rise + (limits p.target).setup ≤ (t.sclDel + 1) * tick p t ∧ p.rise ≤ (limits p.target).rise ∧ p.fall ≤ (limits p.target).fall ∧
    t.prescaler < 16 ∧ t.sdaDel < 16 ∧ t.sclDel < 16 ∧ t.sclLow < 256 ∧ t.sclHigh < 256 := by
  rw [limits_mode p hs]
  unfold calculateTimings at h
  by_cases hr : p.fall > tFallMax (mode p) ∨ p.rise > tRiseMax (mode p)
  · rw [if_pos hr] at h; cases h
  · rw [if_neg hr] at h
    rw [not_or, not_lt, not_lt] at hr
    by_cases hf : (search p).found = true
    · rw [if_pos hf] at h
      obtain ⟨d, hd, rfl⟩ := Option.map_eq_some_iff.1 h
      have hh := hold_spec p _ d hd
      obtain ⟨hm, he, hlt⟩ := (search_inv p (by linarith)).1.found hf
      have ht := tries_spec p hclk _ _ hm
      have h16 := tries_lt p {} (List.range 16).reverse (by simp) (by intro h; cases h) hf
      have hsum : ∀ x : Nat × Nat × Nat, speedError p x = |1 / (lowTime p ⟨x.1, d.1, d.2, x.2.1, x.2.2⟩ + highTime p ⟨x.1, d.1, d.2, x.2.1, x.2.2⟩ + p.rise + p.fall) / p.target - 1| := by
        intro x
        unfold speedError calculateSpeed sclTime lowTime highTime tick
        rw [sync_eq]
        rfl
      refine ⟨?_, ?_, ?_, hh.2.2.2.2, hr.2, hr.1, h16, hh.1, hh.2.1, Nat.lt_succ_of_le ht.1, Nat.lt_succ_of_le ht.2.1⟩
      · have := hsum (search p).timing
        rw [← this, ← he]
        exact hlt
      · unfold lowTime
        rw [sync_eq]
        exact ht.2.2.1
      · unfold highTime
        rw [sync_eq]
        exact ht.2.2.2
    · rw [if_neg hf] at h; cases h

/-- **C321**, the best result: no other combination that is tried (valid prescaler, allowed low time, the best high time for it) is nearer to the target speed,
and if one of them is within the tolerance there is a result. -/
theorem C321_best (p : Params) (htol : p.tolerance ≤ 1) (hr : p.fall ≤ tFallMax (mode p)) (hr' : p.rise ≤ tRiseMax (mode p))
    (k : Nat) (hk : k < 16) (c : Nat × Nat × Nat) (hc : c ∈ tries p k) (hlt : speedError p c < p.tolerance) :
    ∃ t, calculateTimings p = some t ∧ speedError p (t.prescaler, t.sclLow, t.sclHigh) ≤ speedError p c := by
  obtain ⟨hi, ho⟩ := search_inv p (by linarith)
  have hle := ho k hk c hc hlt
  have hf : (search p).found = true := by
    cases h : (search p).found with
    | true => rfl
    | false =>
      have := hi.none h
      linarith
  obtain ⟨hm, he, _⟩ := hi.found hf
  have hsome : (findHoldTimeSettings p (search p).timing.1).isSome = true := by
    unfold tries at hm
    by_cases hn : (findHoldTimeSettings p (search p).timing.1).isNone = true
    · rw [if_pos hn] at hm; cases hm
    · exact Option.isSome_iff_ne_none.2 (by simpa using hn)
  obtain ⟨d, hd⟩ := Option.isSome_iff_exists.1 hsome
  refine ⟨⟨(search p).timing.1, d.1, d.2, (search p).timing.2.1, (search p).timing.2.2⟩, ?_, ?_⟩
  · unfold calculateTimings
    rw [if_neg (by rw [not_or, not_lt, not_lt]; exact ⟨hr, hr'⟩), if_pos hf, hd]
    rfl
  · rw [he] at hle
    exact hle

example : Speed 400000 ∧ calculateTimings (driverParams 8000000 400000 (5 / 100)) = some ⟨0, 0, 0, 11, 2⟩ := by
  refine ⟨by unfold Speed; omega, ?_⟩
  decide +kernel

/-- **C322** (partial). The data line changes late enough: not before the clock line has fallen (with the given fall time), and early enough to be valid within the
time required by the bus specification.  Proved if the analog filter is on, and if the maximum can be met without any delay. -/
theorem C322_hold_partial (p : Params) (t : Timings) (hs : Speed p.target) (h : calculateTimings p = some t) :
    (p.analog = true → p.fall ≤ t.sdaDel * tick p t + ns 50 + (p.dnf + 3) / p.clock) ∧
    (p.rise + ns 260 + (p.dnf + 4) / p.clock ≤ (limits p.target).valid →
      p.rise + ns 260 + (p.dnf + 4) / p.clock + t.sdaDel * tick p t ≤ (limits p.target).valid) := by
  rw [limits_mode p hs]
  unfold calculateTimings at h
  by_cases hr : p.fall > tFallMax (mode p) ∨ p.rise > tRiseMax (mode p)
  · rw [if_pos hr] at h; cases h
  · rw [if_neg hr] at h
    by_cases hf : (search p).found = true
    · rw [if_pos hf] at h
      obtain ⟨d, hd, rfl⟩ := Option.map_eq_some_iff.1 h
      obtain ⟨_, _, h1, h2, _⟩ := hold_spec p _ d hd
      have ht : tick p ⟨(search p).timing.1, d.1, d.2, (search p).timing.2.1, (search p).timing.2.2⟩ = period p (search p).timing.1 := rfl
      rw [ht]
      unfold sdaDelMinTime filterMin at h1
      unfold sdaDelMaxTime filterMax at h2
      unfold ns
      refine ⟨?_, ?_⟩
      · intro _
        have := le_trans (le_max_right _ _) h1
        simp only
        linarith
      · intro hv
        simp only at hv ⊢
        rw [max_eq_right (by linarith)] at h2
        linarith
    · rw [if_neg hf] at h; cases h

example : (driverParams 8000000 400000 (5 / 100)).rise + ns 260 + ((driverParams 8000000 400000 (5 / 100)).dnf + 4) / 8000000 ≤ (limits 400000).valid := by
  norm_num [driverParams, ns, limits]

/-- **C322** is false without the analog filter: its delay of 50 ns is taken into account though it is off. -/
theorem C322_filter_counterexample :
    let p : Params := ⟨48000000, 400000, 5 / 100, 0, false, ns 100, ns 100⟩
    ∃ t, calculateTimings p = some t ∧ t.sdaDel * tick p t + 0 + (p.dnf + 3) / p.clock < p.fall := by
  refine ⟨⟨0, 0, 9, 78, 26⟩, by decide +kernel, ?_⟩
  norm_num [tick, ns]

/-- **C322** is false if the maximum cannot be met: a negative maximum is replaced by 0, and a result is returned; with the parameters of the driver this is the
case for 1 MHz with a clock of 16 MHz. -/
theorem C322_valid_counterexample :
    let p := driverParams 16000000 1000000 (5 / 100)
    ∃ t, calculateTimings p = some t ∧ (limits p.target).valid < p.rise + ns 260 + (p.dnf + 4) / p.clock + t.sdaDel * tick p t := by
  refine ⟨⟨0, 0, 0, 7, 1⟩, by decide +kernel, ?_⟩
  norm_num [tick, ns, limits, driverParams]

/-- **C322** is false for the driver on real buses: it passes a rise time of 0, so with a rise time that the bus specification allows the set-up time of the data is too short. -/
theorem C322_rise_counterexample :
    let p := driverParams 48000000 400000 (5 / 100)
    ∃ t rise, calculateTimings p = some t ∧ 0 ≤ rise ∧ rise ≤ (limits p.target).rise ∧ (t.sclDel + 1) * tick p t < rise + (limits p.target).setup := by
  refine ⟨⟨0, 0, 4, 85, 24⟩, ns 300, by decide +kernel, ?_⟩
  norm_num [tick, ns, limits, driverParams]

/-! ## The register (C323) -/

/-- **C323**. The value of TIMINGR has every timing in its field (reference manuals: SCLL 0–7, SCLH 8–15, SDADEL 16–19, SCLDEL 20–23, PRESC 28–31) and
reserved bits are 0. -/
theorem C323_register (t : Timings) (h1 : t.prescaler < 16) (h2 : t.sdaDel < 16) (h3 : t.sclDel < 16) (h4 : t.sclLow < 256) (h5 : t.sclHigh < 256) :
    let v := (timingsToRegisterValue t).toNat
    v % 256 = t.sclLow ∧ v / 2 ^ 8 % 256 = t.sclHigh ∧ v / 2 ^ 16 % 16 = t.sdaDel ∧ v / 2 ^ 20 % 16 = t.sclDel ∧ v / 2 ^ 24 % 16 = 0 ∧ v / 2 ^ 28 = t.prescaler := by
  have hv : (timingsToRegisterValue t).toNat = t.sclLow + t.sclHigh * 2 ^ 8 + t.sdaDel * 2 ^ 16 + t.sclDel * 2 ^ 20 + t.prescaler * 2 ^ 28 := by
    unfold timingsToRegisterValue
    have m : ∀ n, n < 16 → (BitVec.ofNat 32 n &&& 0b1111).toNat = n := by
      intro n hn
      interval_cases n <;> rfl
    simp only [BitVec.toNat_or, BitVec.toNat_shiftLeft, BitVec.toNat_ofNat, m _ h1, m _ h2, m _ h3, Nat.shiftLeft_eq]
    rw [Nat.mod_eq_of_lt (show t.sclLow < 2 ^ 32 by omega), Nat.mod_eq_of_lt (show t.sclHigh < 2 ^ 32 by omega),
      Nat.mod_eq_of_lt (show t.sclHigh * 2 ^ 8 < 2 ^ 32 by omega), Nat.mod_eq_of_lt (show t.sdaDel * 2 ^ 16 < 2 ^ 32 by omega),
      Nat.mod_eq_of_lt (show t.sclDel * 2 ^ 20 < 2 ^ 32 by omega), Nat.mod_eq_of_lt (show t.prescaler * 2 ^ 28 < 2 ^ 32 by omega)]
    have o : ∀ a b n : Nat, a < 2 ^ n → a ||| b * 2 ^ n = a + b * 2 ^ n := by
      intro a b n ha
      rw [Nat.or_comm, Nat.add_comm, ← Nat.shiftLeft_eq, ← Nat.shiftLeft_add_eq_or_of_lt ha]
    rw [o _ _ 8 (by omega), o _ _ 16 (by omega), o _ _ 20 (by omega), o _ _ 28 (by omega)]
  intro v
  have hv' : v = _ := hv
  omega

example : timingsToRegisterValue ⟨5, 1, 4, 85, 24⟩ = 0x50411855#32 := by decide +kernel

end Props.I2cTiming
