import Verif.Model.Filter
import Verif.Spec.Median
import Verif.Lemmas.Ring
import Verif.Props.Saturated
import Mathlib.Algebra.BigOperators.Group.List.Basic
import Mathlib.Tactic.Linarith
import Mathlib.Tactic.Ring
import Mathlib.Data.List.Induction
set_option autoImplicit false
/- Properties C27, C30, C31 (moving average, ramp, debounce). -/
namespace Props
open Modm.Filter Modm.Saturated Ring
open Spec.Median (window)

/-! ### C27 moving average -/

theorem store_fits (t : Ty) (ht : 0 < t.bits) (v : Int) (hv : t.fits v) : store t v = some v := by
  unfold store
  rw [if_neg (by tauto), wrap_fits t ht v hv]

/-- sums of at most `n` samples that each fit `n` times fit -/
theorem sum_fits (t : Ty) (ht : 0 < t.bits) (n : Nat) (hn : 0 < n) (l : List Int) (hl : l.length ≤ n)
    (h : ∀ x ∈ l, t.fits (n * x)) : t.fits l.sum := by
  have hm := min_le_max t ht
  have key : ∀ l : List Int, (∀ x ∈ l, t.fits (n * x)) →
      (l.length : Int) * t.min ≤ n * l.sum ∧ n * l.sum ≤ (l.length : Int) * t.max := by
    intro l h
    induction l with
    | nil => simp
    | cons a l ih =>
      have h1 := ih (fun x hx => h x (List.mem_cons_of_mem _ hx))
      have h2 := h a List.mem_cons_self
      simp only [List.length_cons, List.sum_cons, Nat.cast_add, Nat.cast_one]
      unfold Ty.fits at h2
      constructor <;> nlinarith
  have := key l h
  have hl' : (l.length : Int) ≤ n := by exact_mod_cast hl
  have hn' : (0 : Int) < n := by exact_mod_cast hn
  constructor
  · by_contra hc
    have : (n : Int) * l.sum ≤ n * (t.min - 1) := Int.mul_le_mul_of_nonneg_left (by omega) (by omega)
    nlinarith
  · by_contra hc
    have : (n : Int) * (t.max + 1) ≤ n * l.sum := Int.mul_le_mul_of_nonneg_left (by omega) (by omega)
    nlinarith

theorem window_cons {T : Type} (w : List T) (o x : T) (w' l : List T) (hw : w = o :: w') :
    (w ++ x :: l).drop (x :: l).length = ((w' ++ [x]) ++ l).drop l.length := by
  subst hw; simp

theorem avg_run (t : Ty) (ht : 0 < t.bits) (n : Nat) (hn : 0 < n) (l : List Int) (x : Avg) (w : List Int)
    (hr : RingL n x.buffer x.index w) (hs : x.sum = w.sum) (hw : ∀ v ∈ w, t.fits (n * v))
    (hl : ∀ v ∈ l, t.fits (n * v)) :
    ∃ y, x.run t n l = some y ∧ y.sum = ((w ++ l).drop l.length).sum ∧
      RingL n y.buffer y.index ((w ++ l).drop l.length) := by
  induction l generalizing x w with
  | nil => exact ⟨x, rfl, by simpa using hs, by simpa using hr⟩
  | cons v l ih =>
    obtain ⟨old, w', hww, hg, hr'⟩ := hr.step v
    have hlen := hr.length
    have hfit1 : t.fits (x.sum - old) := by
      have e : x.sum - old = w'.sum := by rw [hs, hww]; simp
      rw [e]
      exact sum_fits t ht n hn w' (by rw [hww] at hlen; simp at hlen; omega)
        (fun a ha => hw a (by rw [hww]; exact List.mem_cons_of_mem _ ha))
    have hmem : ∀ a ∈ w' ++ [v], t.fits (n * a) := by
      intro a ha
      rcases List.mem_append.1 ha with h | h
      · exact hw a (by rw [hww]; exact List.mem_cons_of_mem _ h)
      · rw [List.mem_singleton.1 h]; exact hl v List.mem_cons_self
    have e2 : x.sum - old + v = (w' ++ [v]).sum := by rw [hs, hww]; simp
    have hfit2 : t.fits (x.sum - old + v) := by
      rw [e2]
      exact sum_fits t ht n hn _ (by rw [hww] at hlen; simp at hlen ⊢; omega) hmem
    obtain ⟨y, hy1, hy2, hy3⟩ := ih ⟨if x.index + 1 = n then 0 else x.index + 1, x.buffer.set x.index v, x.sum - old + v⟩
      (w' ++ [v]) hr' e2 hmem (fun a ha => hl a (List.mem_cons_of_mem _ ha))
    refine ⟨y, ?_, ?_, ?_⟩
    · simp only [Avg.run, Avg.update, hg, Option.bind_eq_bind, Option.bind_some, store_fits t ht _ hfit1,
        store_fits t ht _ hfit2]
      exact hy1
    · rw [hy2, window_cons w old v w' l hww]
    · rw [window_cons w old v w' l hww]; exact hy3

/-- C27: as long as `N * sample` fits the type for every sample (the documented range), every history of updates is
free of overflow and `getValue` is the sum of the last `N` samples divided by `N` (rounded towards zero). -/
theorem C27_moving_average (t : Ty) (ht : 0 < t.bits) (n : Nat) (hn : 0 < n) (hnt : t.fits n) (v : Int)
    (hv : t.fits (n * v)) (l : List Int) (hl : ∀ x ∈ l, t.fits (n * x)) :
    ∃ y, (Avg.init t n v).run t n l = some y ∧ y.getValue t n = some ((window n v l).sum.tdiv n) := by
  obtain ⟨y, h1, h2, _⟩ := avg_run t ht n hn l (Avg.init t n v) (List.replicate n v) (RingL.init n hn v)
    (by simp [Avg.init, wrap_fits t ht _ hv]) (fun a ha => by rw [List.eq_of_mem_replicate ha]; exact hv) hl
  refine ⟨y, h1, ?_⟩
  have hw := wrap_fits t ht n hnt
  unfold Avg.getValue
  rw [hw, if_neg (by omega), h2]
  rfl

example : ((Avg.init ⟨true, 16⟩ 4 0).run ⟨true, 16⟩ 4 [10, -20, 30, 40, 50, -7]).bind (Avg.getValue ⟨true, 16⟩ 4) = some 28
    ∧ window 4 0 [10, -20, 30, 40, 50, -7] = [30, 40, 50, -7] := by decide

theorem run_append (t : Ty) (n : Nat) (a b : List Int) (x : Avg) : x.run t n (a ++ b) = (x.run t n a).bind (·.run t n b) := by
  induction a generalizing x with
  | nil => rfl
  | cons v a ih =>
    simp only [List.cons_append, Avg.run, Option.bind_eq_bind]
    cases x.update t n v with
    | none => rfl
    | some y => simp only [Option.bind_some]; exact ih y

/-- C27: `reset(v)` at any point of a history makes the filter behave as if freshly constructed with `v`. -/
theorem C27_reset (t : Ty) (ht : 0 < t.bits) (n : Nat) (hn : 0 < n) (hnt : t.fits n) (v0 v : Int)
    (hv0 : t.fits (n * v0)) (hv : t.fits (n * v)) (l l' : List Int) (hl : ∀ x ∈ l, t.fits (n * x))
    (hl' : ∀ x ∈ l', t.fits (n * x)) :
    ∃ x y, (Avg.init t n v0).run t n l = some x ∧ (x.reset t n v).run t n l' = some y ∧
      y.getValue t n = some ((window n v l').sum.tdiv n) := by
  obtain ⟨x, h1, _, h3⟩ := avg_run t ht n hn l (Avg.init t n v0) (List.replicate n v0) (RingL.init n hn v0)
    (by simp [Avg.init, wrap_fits t ht _ hv0]) (fun a ha => by rw [List.eq_of_mem_replicate ha]; exact hv0) hl
  obtain ⟨A, B, hb, hi, _, hB, hlen⟩ := h3
  have hAB : A.length + B.length = n := by rw [← hlen, hb]; simp
  have hr : RingL n (x.reset t n v).buffer (x.reset t n v).index (List.replicate n v) := by
    refine ⟨List.replicate A.length v, List.replicate B.length v, ?_, ?_, ?_, by simpa using hB, by simp [Avg.reset, hlen]⟩
    · simp only [Avg.reset, hlen, List.replicate_append_replicate, hAB]
    · simp [Avg.reset, hi]
    · rw [List.replicate_append_replicate, Nat.add_comm, hAB]
  obtain ⟨y, g1, g2, _⟩ := avg_run t ht n hn l' (x.reset t n v) (List.replicate n v) hr
    (by simp [Avg.reset, wrap_fits t ht _ hv]) (fun a ha => by rw [List.eq_of_mem_replicate ha]; exact hv) hl'
  refine ⟨x, y, h1, g1, ?_⟩
  have hw := wrap_fits t ht n hnt
  unfold Avg.getValue
  rw [hw, if_neg (by omega), g2]
  rfl

example : (((Avg.init ⟨true, 16⟩ 4 0).run ⟨true, 16⟩ 4 [10, -20, 30]).bind fun x =>
    ((x.reset ⟨true, 16⟩ 4 100).run ⟨true, 16⟩ 4 [0]).bind (Avg.getValue ⟨true, 16⟩ 4)) = some 75 := by decide

theorem wrap_eq_iff (t : Ty) (a b : Int) (h : (2 ^ t.bits : Int) ∣ a - b) : t.wrap a = t.wrap b := by
  unfold Ty.wrap
  have h' : a % 2 ^ t.bits = b % 2 ^ t.bits := 
    Int.emod_eq_emod_iff_emod_sub_eq_zero.2 (Int.emod_eq_zero_of_dvd h)
  split
  · have e : ∀ x : Int, Int.bmod x (2 ^ t.bits) = Int.bmod (x % 2 ^ t.bits) (2 ^ t.bits) := by
      intro x
      have := (Int.emod_bmod (x := x) (n := 2 ^ t.bits)).symm
      push_cast at this; exact this
    rw [e a, e b, h']
  · exact h'

theorem wrap_dvd (t : Ty) (a : Int) : (2 ^ t.bits : Int) ∣ t.wrap a - a := by
  unfold Ty.wrap
  split
  · have := Int.dvd_bmod_sub_self (x := a) (m := 2 ^ t.bits)
    push_cast at this; exact this
  · have := Int.emod_add_mul_ediv a (2 ^ t.bits)
    exact ⟨-(a / 2 ^ t.bits), by linarith⟩

theorem avg_run_mod (t : Ty) (hmod : t.signed = false ∨ t.bits < 32) (n : Nat) (l : List Int)
    (x : Avg) (w : List Int) (hr : RingL n x.buffer x.index w) (hs : x.sum = t.wrap w.sum) :
    ∃ y, x.run t n l = some y ∧ y.sum = t.wrap ((w ++ l).drop l.length).sum := by
  have hstore : ∀ v, store t v = some (t.wrap v) := by
    intro v; unfold store; rw [if_neg]; rintro ⟨h1, h2, _⟩
    rcases hmod with h | h
    · rw [h1] at h; simp at h
    · omega
  induction l generalizing x w with
  | nil => exact ⟨x, rfl, by simpa using hs⟩
  | cons v l ih =>
    obtain ⟨old, w', hww, hg, hr'⟩ := hr.step v
    have e : t.wrap (t.wrap (x.sum - old) + v) = t.wrap (w' ++ [v]).sum := by
      apply wrap_eq_iff
      obtain ⟨k1, h1⟩ := wrap_dvd t (x.sum - old)
      obtain ⟨k2, h2⟩ := wrap_dvd t w.sum
      refine ⟨k1 + k2, ?_⟩
      have : w.sum = old + w'.sum := by rw [hww]; simp
      simp only [List.sum_append, List.sum_cons, List.sum_nil]
      rw [← hs] at h2
      linarith
    obtain ⟨y, hy1, hy2⟩ := ih ⟨if x.index + 1 = n then 0 else x.index + 1, x.buffer.set x.index v,
      t.wrap (t.wrap (x.sum - old) + v)⟩ (w' ++ [v]) hr' e
    refine ⟨y, ?_, ?_⟩
    · simp only [Avg.run, Avg.update, hg, Option.bind_eq_bind, Option.bind_some, hstore]
      exact hy1
    · rw [hy2, window_cons w old v w' l hww]

/-- C27: for unsigned types and types narrower than `int` an earlier overflow is forgotten: whatever the history,
`getValue` is right as soon as the sum of the last `N` samples fits. -/
theorem C27_moving_average_recovers (t : Ty) (ht : 0 < t.bits) (hmod : t.signed = false ∨ t.bits < 32) (n : Nat)
    (hn : 0 < n) (hnt : t.fits n) (v : Int) (l : List Int) (hfit : t.fits (window n v l).sum) :
    ∃ y, (Avg.init t n v).run t n l = some y ∧ y.getValue t n = some ((window n v l).sum.tdiv n) := by
  obtain ⟨y, h1, h2⟩ := avg_run_mod t hmod n l (Avg.init t n v) (List.replicate n v) (RingL.init n hn v)
    (by simp [Avg.init])
  refine ⟨y, h1, ?_⟩
  have hw := wrap_fits t ht n hnt
  unfold Avg.getValue
  rw [hw, if_neg (by omega), h2]
  have := wrap_fits t ht _ hfit
  unfold window at this
  rw [this]
  rfl

-- the sum of 200, 200, 200, 200 does not fit uint8_t, the later one does
example : ((Avg.init ⟨false, 8⟩ 4 0).run ⟨false, 8⟩ 4 [200, 200, 200, 200, 8, 8, 8, 8]).bind (Avg.getValue ⟨false, 8⟩ 4) = some 8
    ∧ ((Avg.init ⟨false, 8⟩ 4 0).run ⟨false, 8⟩ 4 [200, 200, 200, 200]).bind (Avg.getValue ⟨false, 8⟩ 4) = some 8 := by
  decide

/-! ### C31 debounce -/

/-- weight of a sample -/
def weight (l : List Bool) : Int := l.countP id - l.countP (! ·)

theorem debounce_consts (x : Debounce) (l : List Bool) :
    (x.run l).max = x.max ∧ (x.run l).lower = x.lower ∧ (x.run l).upper = x.upper := by
  induction l generalizing x with
  | nil => exact ⟨rfl, rfl, rfl⟩
  | cons b l ih => have := ih (x.update b); simpa [Debounce.run, Debounce.update] using this

theorem debounce_step (x : Debounce) (b : Bool) (h : x.sum ≤ x.max) :
    (x.update b).sum ≤ x.max ∧
    ((x.update b).sum : Int) = (if b then min (x.sum + 1 : Int) x.max else Max.max (x.sum - 1 : Int) 0) := by
  unfold Debounce.update
  cases b <;> simp <;> split <;> omega

/-- the counter never leaves `0..maxValue` (so it never wraps) -/
theorem C31_counter_in_range (max lower upper : Nat) (l : List Bool) :
    ((Debounce.init max lower upper).run l).sum ≤ max := by
  have key : ∀ (l : List Bool) (x : Debounce), x.sum ≤ x.max → (x.run l).sum ≤ x.max := by
    intro l
    induction l with
    | nil => intro x h; exact h
    | cons b l ih => intro x h; exact ih (x.update b) (debounce_step x b h).1
  exact key l _ (by simp [Debounce.init]; omega)

theorem weight_append (a b : List Bool) : weight (a ++ b) = weight a + weight b := by
  simp [weight, List.countP_append]; ring

/-- the counter can only rise by the weight of some suffix of the samples, or from zero -/
theorem rise_bound (l : List Bool) (x : Debounce) (h : x.sum ≤ x.max) :
    ∃ s, s <:+ l ∧ ((x.run l).sum : Int) ≤ x.sum + weight s := by
  induction l using List.reverseRecOn with
  | nil => exact ⟨[], List.suffix_refl _, by simp [Debounce.run, weight]⟩
  | append_singleton l b ih =>
    obtain ⟨s, hs, hle⟩ := ih
    have hmax : (x.run l).sum ≤ (x.run l).max := by
      have key : ∀ (l : List Bool) (x : Debounce), x.sum ≤ x.max → (x.run l).sum ≤ (x.run l).max := by
        intro l
        induction l with
        | nil => intro x h; exact h
        | cons b l ih => intro x h; exact ih (x.update b) (debounce_step x b h).1
      exact key l x h
    have hst := (debounce_step (x.run l) b hmax).2
    have hrun : x.run (l ++ [b]) = (x.run l).update b := by simp [Debounce.run]
    rw [hrun, hst]
    cases b with
    | true =>
      refine ⟨s ++ [true], ?_, ?_⟩
      · obtain ⟨p, hp⟩ := hs; exact ⟨p, by rw [← hp]; simp⟩
      · rw [weight_append]; simp [weight] at hle ⊢; omega
    | false =>
      by_cases h0 : ((x.run l).sum : Int) - 1 ≥ 0
      · refine ⟨s ++ [false], ?_, ?_⟩
        · obtain ⟨p, hp⟩ := hs; exact ⟨p, by rw [← hp]; simp⟩
        · rw [weight_append]; simp [weight] at hle ⊢; omega
      · exact ⟨[], List.nil_suffix, by simp [weight]; omega⟩

theorem fall_bound (l : List Bool) (x : Debounce) (h : x.sum ≤ x.max) :
    ∃ s, s <:+ l ∧ (x.sum : Int) + weight s ≤ (x.run l).sum := by
  induction l using List.reverseRecOn with
  | nil => exact ⟨[], List.suffix_refl _, by simp [Debounce.run, weight]⟩
  | append_singleton l b ih =>
    obtain ⟨s, hs, hle⟩ := ih
    have hmax : (x.run l).sum ≤ (x.run l).max := by
      have key : ∀ (l : List Bool) (x : Debounce), x.sum ≤ x.max → (x.run l).sum ≤ (x.run l).max := by
        intro l
        induction l with
        | nil => intro x h; exact h
        | cons b l ih => intro x h; exact ih (x.update b) (debounce_step x b h).1
      exact key l x h
    have hst := (debounce_step (x.run l) b hmax).2
    have hrun : x.run (l ++ [b]) = (x.run l).update b := by simp [Debounce.run]
    have hm : (x.run l).max = x.max := (debounce_consts x l).1
    rw [hrun, hst]
    cases b with
    | false =>
      refine ⟨s ++ [false], ?_, ?_⟩
      · obtain ⟨p, hp⟩ := hs; exact ⟨p, by rw [← hp]; simp⟩
      · rw [weight_append]; simp [weight] at hle ⊢; omega
    | true =>
      by_cases h0 : ((x.run l).sum : Int) + 1 ≤ (x.run l).max
      · refine ⟨s ++ [true], ?_, ?_⟩
        · obtain ⟨p, hp⟩ := hs; exact ⟨p, by rw [← hp]; simp⟩
        · rw [weight_append]; simp [weight] at hle ⊢; omega
      · exact ⟨[], List.nil_suffix, by simp [weight]; omega⟩

theorem state_after (x : Debounce) (b : Bool) :
    (x.state = false → (x.update b).state = true → x.upper ≤ (x.update b).sum) ∧
    (x.state = true → (x.update b).state = false → (x.update b).sum ≤ x.lower) := by
  unfold Debounce.update
  constructor
  · intro h1 h2
    simp only [h1] at h2
    simp at h2 ⊢
    exact h2
  · intro h1 h2
    simp only [h1] at h2
    simp at h2 ⊢
    exact h2

/-- C31 (glitch immunity): from any reachable state, the output can only rise after samples whose most recent part
contains at least `upper - sum` more true than false samples, and only fall after `sum - lower` more false ones. -/
theorem C31_glitch_immunity (x : Debounce) (h : x.sum ≤ x.max) (l : List Bool) (b : Bool) :
    ((x.run l).state = false → (x.run (l ++ [b])).state = true →
      ∃ s, s <:+ l ++ [b] ∧ (x.upper : Int) - x.sum ≤ weight s) ∧
    ((x.run l).state = true → (x.run (l ++ [b])).state = false →
      ∃ s, s <:+ l ++ [b] ∧ (x.sum : Int) - x.lower ≤ -weight s) := by
  have hrun : x.run (l ++ [b]) = (x.run l).update b := by simp [Debounce.run]
  obtain ⟨hm, hl, hu⟩ := debounce_consts x l
  constructor
  · intro h2 h3
    obtain ⟨s, hs, hle⟩ := rise_bound (l ++ [b]) x h
    rw [hrun] at h3
    have := (state_after (x.run l) b).1 h2 h3
    rw [hu, ← hrun] at this
    exact ⟨s, hs, by omega⟩
  · intro h2 h3
    obtain ⟨s, hs, hle⟩ := fall_bound (l ++ [b]) x h
    rw [hrun] at h3
    have := (state_after (x.run l) b).2 h2 h3
    rw [hl, ← hrun] at this
    exact ⟨s, hs, by omega⟩

/-- C31: the constructor selects `maxValue` as upper threshold when none is given and starts low; `reset` forces the
output. -/
theorem C31_init_reset (max lower upper : Nat) (x : Debounce) (b : Bool) :
    (Debounce.init max lower upper).state = false ∧ (Debounce.init max lower 0).upper = max ∧
    (0 < upper → (Debounce.init max lower upper).upper = upper) ∧ (Debounce.init max lower upper).lower = lower ∧
    (Debounce.init max lower upper).max = max ∧ (x.reset b).state = b := by
  refine ⟨rfl, rfl, fun h => ?_, rfl, rfl, ?_⟩
  · have : upper ≠ 0 := by omega
    simp [Debounce.init, this]
  · cases b <;> rfl

/-- C31: after `reset` a change of the output needs the full threshold distance from the end of the range. -/
theorem C31_reset_immunity (x : Debounce) (l : List Bool) (b : Bool) :
    (((x.reset false).run l).state = false → ((x.reset false).run (l ++ [b])).state = true →
      ∃ s, s <:+ l ++ [b] ∧ (x.upper : Int) ≤ weight s) ∧
    (((x.reset true).run l).state = true → ((x.reset true).run (l ++ [b])).state = false →
      ∃ s, s <:+ l ++ [b] ∧ (x.max : Int) - x.lower ≤ -weight s) := by
  have h1 := (C31_glitch_immunity (x.reset false) (by simp [Debounce.reset]) l b).1
  have h2 := (C31_glitch_immunity (x.reset true) (by simp [Debounce.reset]) l b).2
  simp only [Debounce.reset, Bool.false_eq_true, if_false, if_true] at h1 h2 ⊢
  refine ⟨?_, h2⟩
  intro a c
  obtain ⟨s, hs, hw⟩ := h1 a c
  exact ⟨s, hs, by push_cast at hw; linarith⟩

/-- C31 (hysteresis): between a falling edge (at the last sample of `l1`, `c`) and a rising edge (at `b`) the samples
end in a part with at least `upper - lower` more true than false samples, and the other way round. -/
theorem C31_hysteresis (x : Debounce) (h : x.sum ≤ x.max) (l1 l2 : List Bool) (c b : Bool) :
    ((x.run l1).state = true → (x.run (l1 ++ [c])).state = false → (x.run (l1 ++ [c] ++ l2)).state = false →
      (x.run (l1 ++ [c] ++ (l2 ++ [b]))).state = true →
      ∃ s, s <:+ l2 ++ [b] ∧ (x.upper : Int) - x.lower ≤ weight s) ∧
    ((x.run l1).state = false → (x.run (l1 ++ [c])).state = true → (x.run (l1 ++ [c] ++ l2)).state = true →
      (x.run (l1 ++ [c] ++ (l2 ++ [b]))).state = false →
      ∃ s, s <:+ l2 ++ [b] ∧ (x.upper : Int) - x.lower ≤ -weight s) := by
  have hr : ∀ a b, x.run (a ++ b) = (x.run a).run b := by intro a b; simp [Debounce.run]
  have hr1 : x.run (l1 ++ [c]) = (x.run l1).update c := by simp [Debounce.run]
  obtain ⟨hm0, hl0, hu0⟩ := debounce_consts x l1
  obtain ⟨hm, hl, hu⟩ := debounce_consts x (l1 ++ [c])
  have hs : (x.run (l1 ++ [c])).sum ≤ (x.run (l1 ++ [c])).max := by
    have key : ∀ (l : List Bool) (x : Debounce), x.sum ≤ x.max → (x.run l).sum ≤ (x.run l).max := by
      intro l
      induction l with
      | nil => intro x h; exact h
      | cons b l ih => intro x h; exact ih (x.update b) (debounce_step x b h).1
    exact key _ x h
  have g := C31_glitch_immunity (x.run (l1 ++ [c])) hs l2 b
  rw [← hr, ← hr, hu, hl] at g
  constructor
  · intro h1 h2 h3 h4
    rw [hr1] at h2
    have hle := (state_after (x.run l1) c).2 h1 h2
    rw [← hr1, hl0] at hle
    obtain ⟨s, hs1, hs2⟩ := g.1 h3 h4
    exact ⟨s, hs1, by omega⟩
  · intro h1 h2 h3 h4
    rw [hr1] at h2
    have hle := (state_after (x.run l1) c).1 h1 h2
    rw [← hr1, hu0] at hle
    obtain ⟨s, hs1, hs2⟩ := g.2 h3 h4
    exact ⟨s, hs1, by omega⟩

theorem run_true_sum (n : Nat) (x : Debounce) (h : x.sum ≤ x.max) :
    (x.run (List.replicate n true)).sum = min (x.sum + n) x.max ∧
    (x.run (List.replicate n false)).sum = x.sum - n := by
  induction n generalizing x with
  | zero => simp [Debounce.run]; omega
  | succ n ih =>
    have st := debounce_step x true h
    have sf := debounce_step x false h
    have ht := ih (x.update true) st.1
    have hf := ih (x.update false) sf.1
    have hmt : (x.update true).max = x.max := rfl
    simp only [List.replicate_succ, Debounce.run, List.foldl_cons] at ht hf ⊢
    rw [ht.1, hf.2]
    have h1 := st.2; have h2 := sf.2
    simp only [if_true, Bool.false_eq_true, if_false] at h1 h2
    constructor
    · rw [hmt]; omega
    · omega

/-- C31 (response): whatever happened before, `maxValue` equal samples in a row force the output to that value,
provided the upper threshold is reachable and the thresholds are ordered. -/
theorem C31_response (x : Debounce) (h : x.sum ≤ x.max) (hu : x.upper ≤ x.max) (hlu : x.lower < x.upper)
    (hm : 0 < x.max) :
    (x.run (List.replicate x.max true)).state = true ∧ (x.run (List.replicate x.max false)).state = false := by
  have key : ∀ (y : Debounce) (b : Bool), (y.update b).state =
      (if y.state && decide ((y.update b).sum ≤ y.lower) then false
        else if !y.state && decide ((y.update b).sum ≥ y.upper) then true else y.state) := fun _ _ => rfl
  have main : ∀ (n : Nat), x.max = n + 1 →
      (x.run (List.replicate (n + 1) true)).state = true ∧ (x.run (List.replicate (n + 1) false)).state = false := by
    intro n hn
    have hst := run_true_sum (n + 1) x h
    have e1 : x.run (List.replicate (n + 1) true) = (x.run (List.replicate n true)).update true := by
      simp [Debounce.run, List.replicate_succ']
    have e2 : x.run (List.replicate (n + 1) false) = (x.run (List.replicate n false)).update false := by
      simp [Debounce.run, List.replicate_succ']
    obtain ⟨_, c1, c2⟩ := debounce_consts x (List.replicate n true)
    obtain ⟨_, d1, d2⟩ := debounce_consts x (List.replicate n false)
    have s1 : (x.run (List.replicate (n + 1) true)).sum = x.max := by rw [hst.1]; omega
    have s2 : (x.run (List.replicate (n + 1) false)).sum = 0 := by rw [hst.2]; omega
    constructor
    · rw [e1, key, ← e1, s1, c1, c2]
      cases (x.run (List.replicate n true)).state <;> simp <;> omega
    · rw [e2, key, ← e2, s2, d1, d2]
      cases (x.run (List.replicate n false)).state <;> simp <;> omega
  have := main (x.max - 1) (by omega)
  rwa [show x.max - 1 + 1 = x.max by omega] at this

-- threshold 1..3 of 4: true,true,false,true,true raises the output, a single false does not lower it
example : ((Debounce.init 4 1 3).run [false, false, true, true]).state = false ∧
    ((Debounce.init 4 1 3).run [false, false, true, true, true]).state = true ∧
    ((Debounce.init 4 1 3).run [false, false, true, true, true, false]).state = true ∧
    ((Debounce.init 4 1 3).run [false, false, true, true, true, false, false]).state = false := by decide

/-! ### C30 ramp -/

/-- next value an ideal ramp takes -/
def rampNext (target value inc dec : Int) : Int :=
  if value < target then min target (value + inc) else Max.max target (value - dec)

theorem ramp_step (t : Ty) (ht : 0 < t.bits) (x : Ramp) (hx : t.fits x.value) (hg : t.fits x.target)
    (hi : 0 < x.inc) (hd : 0 < x.dec) (h1 : t.fits (x.target - x.value) ∨ x.target ≤ x.value)
    (h2 : t.fits (x.value - x.target) ∨ x.value < x.target) :
    ∃ y, x.update t = some y ∧ y.value = rampNext x.target x.value x.inc x.dec ∧ y.target = x.target ∧ y.inc = x.inc ∧
      y.dec = x.dec ∧ (y.reached = (x.reached || decide (y.value = x.target))) := by
  obtain ⟨hx1, hx2⟩ := hx; obtain ⟨hg1, hg2⟩ := hg
  unfold Ramp.update rampNext
  by_cases h : x.target > x.value
  · rw [if_pos h, if_pos h]
    have hf : t.fits (x.target - x.value) := by rcases h1 with h1 | h1; exact h1; omega
    rw [store_fits t ht _ hf]
    simp only [Option.bind_eq_bind, Option.bind_some]
    by_cases hv : x.target - x.value > x.inc
    · rw [if_pos hv, store_fits t ht _ ⟨by omega, by omega⟩]
      refine ⟨_, rfl, ?_, rfl, rfl, rfl, ?_⟩
      · simp only; omega
      · simp only
        rw [decide_eq_false (by omega)]; simp
    · rw [if_neg hv]
      refine ⟨_, rfl, ?_, rfl, rfl, rfl, ?_⟩
      · simp only; omega
      · simp
  · rw [if_neg h, if_neg h]
    have hf : t.fits (x.value - x.target) := by rcases h2 with h2 | h2; exact h2; omega
    rw [store_fits t ht _ hf]
    simp only [Option.bind_eq_bind, Option.bind_some]
    by_cases hv : x.value - x.target > x.dec
    · rw [if_pos hv, store_fits t ht _ ⟨by omega, by omega⟩]
      refine ⟨_, rfl, ?_, rfl, rfl, rfl, ?_⟩
      · simp only; omega
      · simp only
        rw [decide_eq_false (by omega)]; simp
    · rw [if_neg hv]
      refine ⟨_, rfl, ?_, rfl, rfl, rfl, ?_⟩
      · simp only; omega
      · simp

/-- C30 (partial: the distance between value and target must be representable in `T`; always true for unsigned
types, see `C30_ramp_unsigned`; false otherwise, see `C30_ramp_counterexample`). After `setTarget`, the `k`-th update
has moved the value by `k` steps towards the target but not beyond, and `isTargetReached` is true exactly when the value equals the
target after at least one update. -/
theorem C30_ramp_partial (t : Ty) (ht : 0 < t.bits) (x : Ramp) (g : Int) (hx : t.fits x.value) (hg : t.fits g)
    (hi : 0 < x.inc) (hd : 0 < x.dec) (h1 : g ≤ x.value ∨ t.fits (g - x.value)) (h2 : x.value < g ∨ t.fits (x.value - g))
    (k : Nat) :
    ∃ y, (x.setTarget g).run t k = some y ∧
      y.value = (if x.value < g then min g (x.value + k * x.inc) else Max.max g (x.value - k * x.dec)) ∧
      (y.reached = true ↔ 0 < k ∧ y.value = g) := by
  have hm := min_le_max t ht
  have key : ∀ (k : Nat) (x : Ramp), t.fits x.value → t.fits x.target → 0 < x.inc → 0 < x.dec →
      (x.target ≤ x.value ∨ t.fits (x.target - x.value)) → (x.value < x.target ∨ t.fits (x.value - x.target)) →
      (x.reached = true → x.value = x.target) →
      ∃ y, x.run t k = some y ∧ y.value = (if x.value < x.target then min x.target (x.value + k * x.inc)
        else Max.max x.target (x.value - k * x.dec)) ∧
        (y.reached = true ↔ (x.reached = true ∨ 0 < k) ∧ y.value = x.target) := by
    intro k
    induction k with
    | zero =>
      intro x _ _ _ _ _ _ hr
      refine ⟨x, rfl, ?_, ?_⟩
      · simp; split <;> omega
      · constructor
        · intro h; exact ⟨Or.inl h, hr h⟩
        · rintro ⟨h | h, _⟩
          · exact h
          · omega
    | succ k ih =>
      intro x hx hg hi hd h1 h2 hr
      obtain ⟨y, hy, hv, htg, hyi, hyd, hyr⟩ := ramp_step t ht x hx hg hi hd h1.symm h2.symm
      obtain ⟨hx1, hx2⟩ := hx; obtain ⟨hg1, hg2⟩ := hg
      have hki : (0 : Int) ≤ k * x.inc := Int.mul_nonneg (by omega) (by omega)
      have hkd : (0 : Int) ≤ k * x.dec := Int.mul_nonneg (by omega) (by omega)
      have hv' := hv
      unfold rampNext at hv'
      obtain ⟨z, hz, hzv, hzr⟩ := ih y (by unfold Ty.fits; split at hv' <;> constructor <;> omega) (by rw [htg]; exact ⟨hg1, hg2⟩)
        (by rw [hyi]; exact hi) (by rw [hyd]; exact hd)
        (by rw [htg]; unfold Ty.fits at *; split at hv' <;> omega)
        (by rw [htg]; unfold Ty.fits at *; split at hv' <;> omega)
        (by rw [hyr, htg]; intro h; simp at h
            rcases h with h | h
            · have := hr h; split at hv' <;> omega
            · exact h)
      refine ⟨z, by simp [Ramp.run, hy, hz], ?_, ?_⟩
      · rw [hzv, htg, hyi, hyd]
        push_cast
        rw [Int.add_mul, Int.add_mul, Int.one_mul, Int.one_mul]
        split at hv' <;> split <;> omega
      · rw [hzr, htg, hyr]
        constructor
        · rintro ⟨_, h⟩; exact ⟨Or.inr (by omega), h⟩
        · rintro ⟨_, h⟩
          refine ⟨?_, h⟩
          rcases Nat.eq_zero_or_pos k with h0 | h0
          · left
            simp [h0] at hzv
            have : y.value = x.target := by rw [htg] at hzv; split at hzv <;> omega
            simp [this]
          · exact Or.inr h0
  have := key k (x.setTarget g) hx hg hi hd h1 h2 (by simp [Ramp.setTarget])
  obtain ⟨y, a, b, c⟩ := this
  exact ⟨y, a, b, by simpa [Ramp.setTarget] using c⟩

/-- C30 for unsigned types, without side condition: reaches the target after finitely many updates and stays. -/
theorem C30_ramp_unsigned (t : Ty) (ht : 0 < t.bits) (hs : t.signed = false) (x : Ramp) (g : Int) (hx : t.fits x.value)
    (hg : t.fits g) (hi : 0 < x.inc) (hd : 0 < x.dec) (k : Nat) (hk : 0 < k) (hki : g ≤ x.value + k * x.inc)
    (hkd : x.value - k * x.dec ≤ g) :
    ∃ y, (x.setTarget g).run t k = some y ∧ y.value = g ∧ y.reached = true := by
  have h0 : t.min = 0 := by simp [Ty.min, hs]
  unfold Ty.fits at *
  obtain ⟨y, h1, h2, h3⟩ := C30_ramp_partial t ht x g hx hg hi hd (by unfold Ty.fits; omega) (by unfold Ty.fits; omega) k
  have : y.value = g := by split at h2 <;> omega
  exact ⟨y, h1, this, h3.2 ⟨hk, this⟩⟩

/-- C30 is false for signed types: an `int8_t` ramp from -100 to 100 with step 10 jumps at once, because the distance
200 wraps to -56; an `int32_t` ramp has undefined behaviour. -/
theorem C30_ramp_counterexample :
    (((Ramp.init 10 10 (-100)).setTarget 100).update ⟨true, 8⟩).map Ramp.value = some 100 ∧
    (((Ramp.init 10 10 (-2000000000)).setTarget 2000000000).update ⟨true, 32⟩) = none := by decide

/-- C30: `reset` does not clear a reached target. -/
theorem C30_reset_stale : ((Ramp.init 10 10 0).reset 50).reached = true ∧ ((Ramp.init 10 10 0).reset 50).value ≠ ((Ramp.init 10 10 0).reset 50).target := by
  decide

example : (((Ramp.init 10 20 0).setTarget 35).run ⟨true, 8⟩ 3).map Ramp.value = some 30 ∧
    (((Ramp.init 10 20 0).setTarget 35).run ⟨true, 8⟩ 4).map (fun y => (y.value, y.reached)) = some (35, true) := by decide

end Props
