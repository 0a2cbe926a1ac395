import Verif.Lemmas.SystemClock
import Verif.Props.Prescaler
import Mathlib.Data.List.Forall2
import Mathlib.Tactic.Linarith
import Mathlib.Tactic.NormNum

set_option autoImplicit false

/-! Property C161 to C163: `modm::Clock` and `modm::PreciseClock`. -/

namespace Props.SystemClock

open Modm.SystemClock Spec.SystemClock

private theorem shape (cfg : Config) (s : State) (a : Act) :
    (step cfg s a).2 = [] ∨ ((step cfg s a).2 = [.called (now cfg s)] ∧ now cfg (step cfg s a).1 = now cfg s) ∨
    (∃ r, (step cfg s a).2 = [.returned r (now cfg s)] ∧ now cfg (step cfg s a).1 = now cfg s) ∨ ∃ r, (step cfg s a).2 = [.other r (now cfg s)] := by
  cases a with
  | tick => left; simp only [step]; split_ifs <;> rfl
  | handler => left; simp only [step]; split_ifs <;> rfl
  | call =>
    simp only [step]
    split
    · exact .inr (.inl ⟨rfl, rfl⟩)
    · exact .inl rfl
  | other => exact .inr (.inr (.inr ⟨_, rfl⟩))
  | main =>
    simp only [step, mainStep]
    split
    · exact .inl rfl
    · exact .inl rfl
    · exact .inl rfl
    · exact .inl rfl
    · split_ifs
      · exact .inl rfl
      · exact .inl rfl
      · exact .inr (.inr (.inl ⟨_, rfl, rfl⟩))
      · exact .inr (.inr (.inl ⟨_, rfl, rfl⟩))

/-- The latest time at which the calls so far may have looked at the clock. -/
private def limit (cfg : Config) (s : State) : Option Nat → Nat
  | some t => t
  | none => now cfg s

private theorem reach_facts {cfg : Config} (h0 : 0 < cfg.period) (hp : 0 < cfg.parts) (hw : cfg.width * cfg.parts = 32) {s : State} {tr : List Ev}
    (h : Reach cfg (Alone cfg) s tr) :
    Inv cfg s (openFrom none tr) ∧ limit cfg s (openFrom none tr) ≤ now cfg s ∧ ∃ us : List Nat, List.Forall₂ (Good cfg) (calls tr) us ∧ us.Pairwise (· ≤ ·) ∧
      ∀ u ∈ us, u ≤ limit cfg s (openFrom none tr) := by
  induction h with
  | start => exact ⟨⟨h0, rfl, rfl⟩, Nat.le_refl _, [], .nil, .nil, fun _ h => by cases h⟩
  | @step s tr a _ hok ih =>
    obtain ⟨hi, hl, us, h1, h2, h3⟩ := ih
    obtain ⟨h4, h5⟩ := inv_step hp hw hi hok
    have hnow := now_step hi.cnt a
    rw [openFrom_append, calls_snoc]
    refine ⟨h4, ?_⟩
    have hle : ∀ u ∈ us, u ≤ now cfg s := fun u hu => (h3 u hu).trans hl
    rcases shape cfg s a with he | ⟨he, hn⟩ | ⟨r, he, hn⟩ | ⟨r, he⟩
    · rw [he]
      simp only [callsFrom, openFrom, List.append_nil]
      cases ho : openFrom none tr with
      | none => exact ⟨Nat.le_refl _, us, h1, h2, fun u hu => (hle u hu).trans hnow⟩
      | some t => rw [ho] at hl h3; exact ⟨Nat.le_trans hl hnow, us, h1, h2, h3⟩
    · rw [he]
      simp only [callsFrom, openFrom, List.append_nil, limit]
      exact ⟨hnow, us, h1, h2, hle⟩
    · rw [he] at h5 ⊢
      cases ho : openFrom none tr with
      | none =>
        simp only [callsFrom, openFrom, List.append_nil, limit]
        exact ⟨Nat.le_refl _, us, h1, h2, fun u hu => (hle u hu).trans hnow⟩
      | some t =>
        rw [ho] at h5 h3
        simp only [callsFrom, List.mem_singleton] at h5
        obtain ⟨-, u, hg⟩ := h5 _ rfl
        simp only [callsFrom, openFrom, limit]
        refine ⟨Nat.le_refl _, us ++ [u], List.rel_append h1 (.cons hg .nil), ?_, fun v hv => ?_⟩
        · rw [List.pairwise_append]
          refine ⟨h2, List.pairwise_singleton _ _, fun v hv w hw => ?_⟩
          rw [List.mem_singleton.1 hw]
          exact (h3 v hv).trans hg.1
        · rcases List.mem_append.1 hv with hv | hv
          · exact (hle v hv).trans hnow
          · rw [List.mem_singleton.1 hv]
            exact Nat.le_trans hg.2.1 hnow
    · rw [he]
      cases ho : openFrom none tr with
      | none =>
        simp only [callsFrom, openFrom, List.append_nil, limit]
        exact ⟨Nat.le_refl _, us, h1, h2, fun u hu => (hle u hu).trans hnow⟩
      | some t =>
        rw [ho] at hl h3
        simp only [callsFrom, openFrom, List.append_nil]
        exact ⟨Nat.le_trans hl hnow, us, h1, h2, h3⟩

/-- What a clock shows does not go backwards. -/
theorem shown_le {cfg : Config} (h0 : 0 < cfg.period) (hm : Monotone cfg) {t u : Nat} (h : t ≤ u) : shown cfg t ≤ shown cfg u := by
  have h1 := Nat.div_le_div_right (c := cfg.period) h
  have hu := Nat.mod_lt u h0
  have ht := Nat.mod_lt t h0
  rcases Nat.eq_or_lt_of_le h1 with h1 | h1
  · have h2 : t % cfg.period ≤ u % cfg.period := by
      have h3 := Nat.div_add_mod t cfg.period
      have h4 := Nat.div_add_mod u cfg.period
      rw [h1] at h3
      omega
    have := hm.within _ _ h2 hu
    simp only [shown, h1]
    omega
  · have h2 := hm.next _ ht
    have h3 : cfg.step * (t / cfg.period + 1) ≤ cfg.step * (u / cfg.period) := Nat.mul_le_mul_left _ h1
    rw [Nat.mul_add, Nat.mul_one] at h3
    simp only [shown]
    omega

/-- **C161** (partial: the interrupt is handled within two steps of the caller, and nobody else calls `now` during a call.  Missing: calls in interrupts or with interrupts disabled, and during other calls.)
Every call returns what the clock shows at a moment during the call, and the moments of successive calls are in order; however the timer, the handler and the steps of the call are interleaved. -/
theorem C161_exact_partial {cfg : Config} (h0 : 0 < cfg.period) (hp : 0 < cfg.parts) (hw : cfg.width * cfg.parts = 32) {s : State} {tr : List Ev}
    (h : Reach cfg (Alone cfg) s tr) :
    ∃ us : List Nat, us.Pairwise (· ≤ ·) ∧
      List.Forall₂ (fun (c : Nat × Nat × Nat) u => c.1 ≤ u ∧ u ≤ c.2.2 ∧ c.2.1 = shown cfg u % 2 ^ 32) (calls tr) us := by
  obtain ⟨-, -, us, h1, h2, -⟩ := reach_facts h0 hp hw h
  exact ⟨us, h2, h1⟩

/-- **C161** (partial: as before)  For a clock that does not go backwards by itself, the difference of the results of an earlier and a later call, in 32 bits, is the time shown between two moments, one during each
call. -/
theorem C161_elapsed_partial {cfg : Config} (h0 : 0 < cfg.period) (hp : 0 < cfg.parts) (hw : cfg.width * cfg.parts = 32) (hm : Monotone cfg) {s : State} {tr : List Ev}
    (h : Reach cfg (Alone cfg) s tr) :
    (calls tr).Pairwise fun c d => ∃ u v, c.1 ≤ u ∧ u ≤ c.2.2 ∧ d.1 ≤ v ∧ v ≤ d.2.2 ∧ u ≤ v ∧ shown cfg u ≤ shown cfg v ∧
      (d.2.1 + 2 ^ 32 - c.2.1) % 2 ^ 32 = (shown cfg v - shown cfg u) % 2 ^ 32 := by
  obtain ⟨us, h1, h2⟩ := C161_exact_partial h0 hp hw h
  generalize calls tr = l at h2
  induction h2 with
  | nil => exact .nil
  | @cons c u l us hc hl ih =>
    rw [List.pairwise_cons] at h1
    refine .cons (fun d hd => ?_) (ih h1.2)
    have : ∃ v ∈ us, d.1 ≤ v ∧ v ≤ d.2.2 ∧ d.2.1 = shown cfg v % 2 ^ 32 := by
      clear ih h1
      induction hl with
      | nil => cases hd
      | cons h _ ih =>
        rcases List.mem_cons.1 hd with rfl | hd
        · exact ⟨_, List.mem_cons_self, h⟩
        · obtain ⟨v, hv, h⟩ := ih hd
          exact ⟨v, List.mem_cons_of_mem _ hv, h⟩
    obtain ⟨v, hv, h3, h4, h5⟩ := this
    have huv := h1.1 v hv
    have hs := shown_le h0 hm huv
    refine ⟨u, v, hc.1, hc.2.1, h3, h4, huv, hs, ?_⟩
    rw [h5, hc.2.2]
    omega

private def avr16 : Config := avrMicro 16000000

private def ticks (n : Nat) : List Act := List.replicate n .tick

/-- one call without interruption -/
private def whole : List Act := .call :: List.replicate 7 .main

-- a call which the handler interrupts between the bytes, and another one later
example : calls (run avr16 init (ticks 200 ++ [.call, .main, .main] ++ ticks 51 ++ [.main, .main, .handler, .main, .main, .main] ++ ticks 3 ++ List.replicate 7 .main ++ ticks 7 ++ whole)).2 =
    [(200, 1012, 254), (261, 1040, 261)] := by
  decide +kernel

private def alone (cfg : Config) (s : State) : Act → Bool
  | .other => s.main == .idle
  | .main => !s.pend || s.late < 2
  | .tick => !s.pend || s.cnt + 1 < cfg.period
  | _ => true

private def check (cfg : Config) (s : State) : List Act → Bool
  | [] => true
  | a :: as => alone cfg s a && check cfg (step cfg s a).1 as

private theorem check_reach {cfg : Config} (as : List Act) {s : State} {tr : List Ev} (h : Reach cfg (Alone cfg) s tr) (hc : check cfg s as = true) :
    Reach cfg (Alone cfg) (run cfg s as).1 (tr ++ (run cfg s as).2) := by
  induction as generalizing s tr with
  | nil => simpa [run] using h
  | cons a as ih =>
    simp only [check, Bool.and_eq_true] at hc
    have hok : Alone cfg s a := by
      cases a with
      | tick => intro hp; simpa [alone, hp] using hc.1
      | main => intro hp; simpa [alone, hp] using hc.1
      | other => simpa [alone, Alone] using hc.1
      | _ => trivial
    have := ih (.step a h hok) hc.2
    simpa [run] using this

-- such schedules keep the rules
example : ∃ s tr, Reach avr16 (Alone avr16) s tr ∧ calls tr = [(200, 1012, 254), (261, 1040, 261)] :=
  ⟨_, _, check_reach (ticks 200 ++ [.call, .main, .main] ++ ticks 51 ++ [.main, .main, .handler, .main, .main, .main] ++ ticks 3 ++ List.replicate 7 .main ++ ticks 7 ++ whole) .start (by decide +kernel),
    by decide +kernel⟩

/-- **C161** is false if an interrupt calls `now` during a call, although the interrupts are handled promptly: it clears `interrupt`, the call going on does not notice that a period has passed, and returns a time one
millisecond ahead; the next call goes back.  (The moment is given in clocks of 4 µs.) -/
theorem C161_other_counterexample : ∃ as : List Act, calls (run avr16 init as).2 = [(240, 1960, 251), (260, 1036, 260)] ∧ shown avr16 251 = 1000 :=
  ⟨ticks 240 ++ [.call, .main, .main] ++ ticks 11 ++ [.handler, .other, .main, .main, .main, .main, .main] ++ ticks 9 ++ whole, by decide +kernel, by decide +kernel⟩

/-- **C161** is false with interrupts disabled: when the timer starts again meanwhile, the clock goes back a millisecond. -/
theorem C161_disabled_counterexample : ∃ as : List Act, calls (run avr16 init as).2 = [(250, 1000, 250), (260, 36, 260)] ∧ shown avr16 260 = 1036 :=
  ⟨ticks 250 ++ whole ++ ticks 10 ++ whole, by decide +kernel, by decide +kernel⟩

private theorem main_fields (cfg : Config) (s : State) : (step cfg s .main).1.main = (mainStep cfg s).1.main ∧ (step cfg s .main).1.flag = (mainStep cfg s).1.flag := ⟨rfl, rfl⟩

private theorem run_main (cfg : Config) (k : Nat) (s : State) :
    (run cfg s (List.replicate (k + 1) .main)).1 = (run cfg (step cfg s .main).1 (List.replicate k .main)).1 := rfl

private theorem one_main (cfg : Config) (s : State) : (run cfg s (List.replicate 1 .main)).1 = (step cfg s .main).1 := rfl

private theorem run_add (cfg : Config) (j k : Nat) (s : State) :
    (run cfg s (List.replicate (j + k) .main)).1 = (run cfg (run cfg s (List.replicate j .main)).1 (List.replicate k .main)).1 := by
  induction j generalizing s with
  | zero => rw [Nat.zero_add]; rfl
  | succ j ih => rw [Nat.succ_add, run_main, run_main, ih]

private theorem time_run (cfg : Config) (j : Nat) (s : State) (v : Nat) (acc : List Nat) (h : s.main = .time v acc) (hj : cfg.parts ≤ acc.length + (j + 1)) :
    ∃ k acc', k ≤ j + 1 ∧ (run cfg s (List.replicate k .main)).1.main = .check v acc' ∧ (run cfg s (List.replicate k .main)).1.flag = s.flag := by
  induction j generalizing s acc with
  | zero =>
    refine ⟨1, acc ++ [part cfg (variable_ cfg s) acc.length], le_rfl, ?_⟩
    rw [one_main]
    simp only [main_fields, mainStep, h]
    rw [if_neg (by simp; omega)]
    exact ⟨rfl, trivial⟩
  | succ j ih =>
    by_cases hlt : acc.length + 1 < cfg.parts
    · have hm : (step cfg s .main).1.main = .time v (acc ++ [part cfg (variable_ cfg s) acc.length]) := by
        simp only [main_fields, mainStep, h]
        rw [if_pos (by simpa using hlt)]
      have hf : (step cfg s .main).1.flag = s.flag := by
        simp only [main_fields, mainStep, h]
      obtain ⟨k, acc', h1, h2, h3⟩ := ih _ _ hm (by simp; omega)
      exact ⟨k + 1, acc', by omega, by rw [run_main]; exact h2, by rw [run_main, h3, hf]⟩
    · refine ⟨1, acc ++ [part cfg (variable_ cfg s) acc.length], by omega, ?_⟩
      rw [one_main]
      simp only [main_fields, mainStep, h]
      rw [if_neg (by simpa using hlt)]
      exact ⟨rfl, trivial⟩

private theorem clear_run (cfg : Config) (hp : 0 < cfg.parts) (s : State) (h : s.main = .clear) : ∃ k, k ≤ cfg.parts + 3 ∧ (run cfg s (List.replicate k .main)).1.main = .idle := by
  have m1 : (step cfg s .main).1.main = .val ∧ (step cfg s .main).1.flag = false := by simp only [main_fields, mainStep, h, and_self]
  have m2 : (step cfg (step cfg s .main).1 .main).1.main = .time (step cfg s .main).1.cnt [] ∧ (step cfg (step cfg s .main).1 .main).1.flag = false := by
    simp only [main_fields, mainStep, m1.1, and_self, m1.2]
  obtain ⟨k, acc', h1, h2, h3⟩ := time_run cfg (cfg.parts - 1) _ _ _ m2.1 (by simp; omega)
  refine ⟨2 + (k + 1), by omega, ?_⟩
  rw [run_add, run_add]
  change (run cfg (run cfg (step cfg (step cfg s .main).1 .main).1 (List.replicate k .main)).1 (List.replicate 1 .main)).1.main = .idle
  rw [one_main]
  simp only [main_fields, mainStep, h2]
  rw [h3, m2.2]
  rfl

/-- C161: wherever a call is, and whatever has happened before, it returns within twice as many steps as it has, if no further interrupt comes. -/
theorem C161_returns (cfg : Config) (hp : 0 < cfg.parts) (s : State) : ∃ k, k ≤ 2 * (cfg.parts + 3) ∧ (run cfg s (List.replicate k .main)).1.main = .idle := by
  have chk : ∀ (s : State) v acc, s.main = .check v acc → ∃ k, k ≤ cfg.parts + 4 ∧ (run cfg s (List.replicate k .main)).1.main = .idle := by
    intro s v acc h
    cases hf : s.flag with
    | true =>
      have m : (step cfg s .main).1.main = .clear := by simp only [main_fields, mainStep, h, hf, if_true]
      obtain ⟨k, h1, h2⟩ := clear_run cfg hp _ m
      exact ⟨k + 1, by omega, by rw [run_main]; exact h2⟩
    | false => exact ⟨1, by omega, by rw [one_main]; simp [main_fields, mainStep, h, hf]⟩
  have tim : ∀ (s : State) v acc, s.main = .time v acc → ∃ k, k ≤ 2 * cfg.parts + 4 ∧ (run cfg s (List.replicate k .main)).1.main = .idle := by
    intro s v acc h
    obtain ⟨k, acc', h1, h2, -⟩ := time_run cfg (cfg.parts - 1) s v acc h (by omega)
    obtain ⟨k', h3, h4⟩ := chk _ _ _ h2
    exact ⟨k + k', by omega, by rw [run_add]; exact h4⟩
  cases h : s.main with
  | idle => exact ⟨0, by omega, h⟩
  | clear =>
    obtain ⟨k, h1, h2⟩ := clear_run cfg hp s h
    exact ⟨k, by omega, h2⟩
  | val =>
    have m : (step cfg s .main).1.main = .time s.cnt [] := by simp only [main_fields, mainStep, h]
    obtain ⟨k, h1, h2⟩ := tim _ _ _ m
    exact ⟨k + 1, by omega, by rw [run_main]; exact h2⟩
  | time v acc =>
    obtain ⟨k, h1, h2⟩ := tim s v acc h
    exact ⟨k, by omega, h2⟩
  | check v acc =>
    obtain ⟨k, h1, h2⟩ := chk s v acc h
    exact ⟨k, by omega, h2⟩

/-- in the middle of a call, after the handler: the call is repeated and returns -/
example : ∃ s, (∃ as, (run (avrMicro 16000000) init as).1 = s) ∧ s.flag = true ∧ s.main ≠ .idle :=
  ⟨(run (avrMicro 16000000) init (List.replicate 251 .tick ++ [.call, .main, .main, .handler])).1, ⟨_, rfl⟩, by decide +kernel⟩

/-! ### The SysTick -/

private theorem linear_facts {rnd : ℚ → ℚ} (hr : Props.DoubleRounding rnd) {g freq : Nat} (hg : g < 2 ^ 24 * freq) (hq : 0 < freq) (hq' : freq ≤ 1000)
    {r : Modm.Prescaler.Result} (h : Modm.Prescaler.fromLinear rnd g freq 1 (2 ^ 24 - 1) = some r) (ht : g / r.prescaler = freq) :
    r.index + 1 = r.prescaler ∧ 0 < r.prescaler ∧ r.prescaler < 2 ^ 24 ∧ r.prescaler = g / freq := by
  have hg0 : 0 < g := by
    rcases Nat.eq_zero_or_pos g with rfl | h0
    · rw [Nat.zero_div] at ht; omega
    · exact h0
  have hd : g / freq < 2 ^ 24 := Nat.div_lt_of_lt_mul (by rwa [Nat.mul_comm] at hg)
  have hle : ∀ q, 0 < q → g / q = freq → q ≤ g / freq := by
    intro q h0 h1
    rw [Nat.le_div_iff_mul_le hq, Nat.mul_comm, ← h1]
    exact Nat.div_mul_le_self g q
  simp only [Modm.Prescaler.fromLinear] at h
  rw [floor_ratio hr hg0 (by omega) hq (by omega) (by omega), Nat.mod_eq_of_lt (by omega)] at h
  split_ifs at h with h1
  simp only [Option.some.injEq] at h
  simp only [Modm.Prescaler.linearPick] at h
  have m1 : Nat.max (g / freq) 1 = max (g / freq) 1 := rfl
  have m2 : Nat.min (g / freq + 1) (2 ^ 24 - 1) = min (g / freq + 1) (2 ^ 24 - 1) := rfl
  rw [m1, m2] at h h1
  split_ifs at h
  · subst h
    simp only at ht ⊢
    have := hle _ (by omega) ht
    omega
  · subst h
    simp only at ht ⊢
    have := hle _ (by omega) ht
    omega

/-- What `initialize` has set up if it compiles. -/
private theorem setup_facts {rnd : ℚ → ℚ} (hr : Props.DoubleRounding rnd) {f freq ref : Nat} (hq : 0 < freq) (hq' : freq ≤ 1000) (href : 0 < ref) (href' : ref ≤ 16)
    {c : Setup} (h : setup rnd f freq ref = some c) :
    (c.div = if ref = 1 ∨ f < ref * 1000000 then 1 else ref) ∧ 0 < c.div ∧ 0 < c.period ∧ c.period = f / c.div / freq ∧ c.period < 2 ^ 24 ∧
    c.us = 2 ^ ncycles freq * (c.div * 1000000) / f % 2 ^ 32 ∧ c.ms = 2 ^ ncycles freq * (c.div * 1000) / f % 2 ^ 32 := by
  simp only [setup] at h
  split_ifs at h with h1 h2
  · split at h
    · cases h
    · next r hl =>
      split_ifs at h with h3
      cases h
      rw [Nat.div_one] at h3 hl
      have hg : f < 2 ^ 24 * freq := by
        rcases h2 with rfl | h2
        · omega
        · have : ref * 1000000 ≤ 16000000 := by omega
          omega
      obtain ⟨a1, a2, a3, a4⟩ := linear_facts hr hg hq hq' hl h3
      exact ⟨by rw [if_pos h2], Nat.one_pos, Nat.succ_pos _, by simp only [Nat.div_one]; omega, by simp only; omega, rfl, rfl⟩
  · split at h
    · cases h
    · next r hl =>
      split_ifs at h with h3
      cases h
      have hg : f / ref < 2 ^ 24 * freq := by
        apply Nat.div_lt_of_lt_mul
        rw [← Nat.mul_assoc, Nat.mul_comm ref]
        omega
      obtain ⟨a1, a2, a3, a4⟩ := linear_facts hr hg hq hq' hl h3
      exact ⟨by rw [if_neg h2], href, Nat.succ_pos _, by simp only; omega, by simp only; omega, rfl, rfl⟩

/-- C162: if it compiles, the interrupt comes as often as asked for, up to one clock of the SysTick too early, for every frequency of the processor. -/
theorem C162_period {rnd : ℚ → ℚ} (hr : Props.DoubleRounding rnd) {f freq ref : Nat} (hq : 0 < freq) (hq' : freq ≤ 1000) (href : 0 < ref) (href' : ref ≤ 16)
    {c : Setup} (h : setup rnd f freq ref = some c) :
    0 < c.period ∧ c.period < 2 ^ 24 ∧ c.period * freq * c.div ≤ f ∧ f < (c.period + 1) * freq * c.div := by
  obtain ⟨-, h1, h2, h3, h4, -⟩ := setup_facts hr hq hq' href href' h
  refine ⟨h2, h4, ?_, ?_⟩
  · have a : c.period * freq ≤ f / c.div := by rw [h3]; exact Nat.div_mul_le_self _ _
    exact (Nat.le_div_iff_mul_le h1).1 a
  · have a : f / c.div < (c.period + 1) * freq := by
      rw [h3]; exact Nat.lt_mul_of_div_lt (Nat.lt_succ_self _) hq
    exact (Nat.div_lt_iff_lt_mul h1).1 a

/-- both branches, with eight clocks and with one -/
example : setup id 72000000 4 8 = some ⟨8, 2250000, 477218588, 477218⟩ ∧ setup id 4000000 4 8 = some ⟨1, 1000000, 1073741824, 1073741⟩ ∧
    setup id 480000000 1000 1 = some ⟨1, 480000, 2184, 2⟩ := by decide +kernel

private theorem scaled {K D M f t us : Nat} (hf : 0 < f) (ht : t < K) (hus : us = K * (D * M) / f) :
    t * us / K * f ≤ t * D * M ∧ t * D * M < (t * us / K + 2) * f := by
  have hK : 0 < K := by omega
  have a1 : us * f ≤ K * (D * M) := by rw [hus]; exact Nat.div_mul_le_self _ _
  have a2 : K * (D * M) < (us + 1) * f := by rw [hus]; exact Nat.lt_mul_of_div_lt (Nat.lt_succ_self _) hf
  have b1 : t * us / K * K ≤ t * us := Nat.div_mul_le_self _ _
  have b2 : t * us < (t * us / K + 1) * K := Nat.lt_mul_of_div_lt (Nat.lt_succ_self _) hK
  generalize t * us / K = q at *
  constructor
  · apply Nat.le_of_mul_le_mul_right _ hK
    calc q * f * K = q * K * f := by ring
      _ ≤ t * us * f := Nat.mul_le_mul_right _ b1
      _ = t * (us * f) := by ring
      _ ≤ t * (K * (D * M)) := Nat.mul_le_mul_left _ a1
      _ = t * D * M * K := by ring
  · apply Nat.lt_of_mul_lt_mul_right (a := K)
    calc t * D * M * K = t * (K * (D * M)) := by ring
      _ ≤ t * ((us + 1) * f) := Nat.mul_le_mul_left _ a2.le
      _ = (t * us + t) * f := by ring
      _ < ((q + 1) * K + K) * f := Nat.mul_lt_mul_of_pos_right (by omega) hf
      _ = (q + 2) * f * K := by ring

private theorem us_facts {rnd : ℚ → ℚ} (hr : Props.DoubleRounding rnd) {f freq ref : Nat} (hf : f ≤ 10 ^ 9) (hq : 0 < freq) (hq' : freq ≤ 1000) (href : 0 < ref)
    (href' : ref ≤ 16) {c : Setup} (h : setup rnd f freq ref = some c) (hfit : freq = 1000 ∨ c.div * 1000000 < f) {t : Nat} (ht : t < c.period) :
    interpUs freq c.us t = t * (2 ^ ncycles freq * (c.div * 1000000) / f) / 2 ^ ncycles freq ∧ t < 2 ^ ncycles freq ∧ 0 < f := by
  obtain ⟨h1, h2, h3, h4⟩ := C162_period hr hq hq' href href' h
  obtain ⟨-, h5, -, -, -, h6, -⟩ := setup_facts hr hq hq' href href' h
  have hf0 : 0 < f := lt_of_lt_of_le (Nat.mul_pos (Nat.mul_pos h1 hq) h5) h3
  by_cases h7 : freq = 1000
  · subst h7
    have hn : ncycles 1000 = 20 := rfl
    have ht20 : t < 2 ^ 20 := by
      have a : c.period * 1000 * 1 ≤ c.period * 1000 * c.div := Nat.mul_le_mul_left _ h5
      omega
    rw [hn] at h6 ⊢
    have htd : t * c.div * 1000000 ≤ 1000 * f := by
      have a : t * (c.div * 1000000) ≤ c.period * (c.div * 1000000) := Nat.mul_le_mul_right _ ht.le
      have b : c.period * (c.div * 1000000) = 1000 * (c.period * 1000 * c.div) := by ring
      rw [Nat.mul_assoc]
      omega
    have hD : c.div * 1000000 ≤ 1000 * f :=
      calc c.div * 1000000 = 1 * (c.div * 1000000) := (Nat.one_mul _).symm
        _ ≤ c.period * (c.div * 1000000) := Nat.mul_le_mul_right _ h1
        _ = 1000 * (c.period * 1000 * c.div) := by ring
        _ ≤ 1000 * f := Nat.mul_le_mul_left _ h3
    have hus : 2 ^ 20 * (c.div * 1000000) / f < 2 ^ 32 := (Nat.div_lt_iff_lt_mul hf0).2 (by omega)
    rw [Nat.mod_eq_of_lt hus] at h6
    refine ⟨?_, ht20, hf0⟩
    obtain ⟨a1, -⟩ := scaled hf0 ht20 h6
    have a2 : t * c.us / 2 ^ 20 ≤ 1000 := Nat.le_of_mul_le_mul_right (a1.trans htd) hf0
    have a3 : t * c.us < 2 ^ 32 := by
      have := (Nat.div_le_iff_le_mul_add_pred (a := t * c.us) (b := 2 ^ 20) (by norm_num)).1 a2
      omega
    simp only [interpUs, if_pos]
    rw [Nat.mod_eq_of_lt a3, h6]
  · have hn : ncycles freq = 32 := by rw [ncycles, if_neg h7]
    rw [hn] at h6 ⊢
    have hlt := hfit.resolve_left h7
    have hus : 2 ^ 32 * (c.div * 1000000) / f < 2 ^ 32 := (Nat.div_lt_iff_lt_mul hf0).2 (by omega)
    rw [Nat.mod_eq_of_lt hus] at h6
    have ht24 : t < 2 ^ 24 := ht.trans h2
    refine ⟨?_, by omega, hf0⟩
    simp only [interpUs, if_neg h7]
    rw [h6]
    generalize 2 ^ 32 * (c.div * 1000000) / f = u at hus
    have a1 : t * u ≤ t * 2 ^ 32 := Nat.mul_le_mul_left _ hus.le
    exact Nat.mod_eq_of_lt ((Nat.div_lt_iff_lt_mul (by norm_num)).2 (by omega))

/-- C162: between two interrupts the precise clock adds the time since the last one, less than two microseconds too little and never too much, and it does not go backwards; for every
frequency above 1 MHz with the clock of the processor or above `ref` MHz with the slower one, and any if the interrupt comes every millisecond. -/
theorem C162_micro_partial {rnd : ℚ → ℚ} (hr : Props.DoubleRounding rnd) {f freq ref : Nat} (hf : f ≤ 10 ^ 9) (hq : 0 < freq) (hdvd : freq ∣ 1000) (href : 0 < ref)
    (href' : ref ≤ 16) {c : Setup} (h : setup rnd f freq ref = some c) (hfit : freq = 1000 ∨ c.div * 1000000 < f) :
    (∀ t, t < c.period → (sysTickMicro freq c).interp t * f ≤ t * c.div * 1000000 ∧ t * c.div * 1000000 < ((sysTickMicro freq c).interp t + 2) * f) ∧
    Monotone (sysTickMicro freq c) := by
  have hq' : freq ≤ 1000 := Nat.le_of_dvd (by norm_num) hdvd
  have key : ∀ t, t < c.period → (sysTickMicro freq c).interp t * f ≤ t * c.div * 1000000 ∧ t * c.div * 1000000 < ((sysTickMicro freq c).interp t + 2) * f := by
    intro t ht
    obtain ⟨h1, h2, h3⟩ := us_facts hr hf hq hq' href href' h hfit ht
    simp only [sysTickMicro]
    rw [h1]
    exact scaled h3 h2 rfl
  refine ⟨key, ?_, ?_⟩
  · intro a b hab hb
    simp only [sysTickMicro] at hb ⊢
    rw [(us_facts hr hf hq hq' href href' h hfit (lt_of_le_of_lt hab hb)).1, (us_facts hr hf hq hq' href href' h hfit hb).1]
    exact Nat.div_le_div_right (Nat.mul_le_mul_right _ hab)
  · intro a ha
    obtain ⟨h1, -⟩ := key a ha
    obtain ⟨-, -, hf0⟩ := us_facts hr hf hq hq' href href' h hfit ha
    obtain ⟨-, -, h3, -⟩ := C162_period hr hq hq' href href' h
    obtain ⟨k, hk⟩ := hdvd
    have hstep : (sysTickMicro freq c).step = k * 1000 := by
      simp only [sysTickMicro]; rw [hk, Nat.mul_div_cancel_left _ hq]
    rw [hstep]
    apply Nat.le_of_mul_le_mul_right _ hf0
    apply Nat.le_of_mul_le_mul_right _ hq
    change a < c.period at ha
    calc (sysTickMicro freq c).interp a * f * freq ≤ a * c.div * 1000000 * freq := Nat.mul_le_mul_right _ h1
      _ ≤ c.period * c.div * 1000000 * freq := Nat.mul_le_mul_right _ (Nat.mul_le_mul_right _ (Nat.mul_le_mul_right _ ha.le))
      _ = 1000000 * (c.period * freq * c.div) := by ring
      _ ≤ 1000000 * f := Nat.mul_le_mul_left _ h3
      _ = k * 1000 * f * freq := by rw [show (1000000 : Nat) = 1000 * 1000 from rfl]; nth_rewrite 1 [hk]; ring

/-- C162: likewise the clock with milliseconds if the interrupt comes less often. -/
theorem C162_milli_partial {rnd : ℚ → ℚ} (hr : Props.DoubleRounding rnd) {f freq ref : Nat} (hq : 0 < freq) (hdvd : freq ∣ 1000) (hne : freq ≠ 1000) (href : 0 < ref)
    (href' : ref ≤ 16) {c : Setup} (h : setup rnd f freq ref = some c) (hfit : c.div * 1000 < f) :
    (∀ t, t < c.period → (sysTickMilli freq c).interp t * f ≤ t * c.div * 1000 ∧ t * c.div * 1000 < ((sysTickMilli freq c).interp t + 2) * f) ∧
    Monotone (sysTickMilli freq c) := by
  have hq' : freq ≤ 1000 := Nat.le_of_dvd (by norm_num) hdvd
  obtain ⟨-, h2, h3, -⟩ := C162_period hr hq hq' href href' h
  obtain ⟨-, -, -, -, -, -, h6⟩ := setup_facts hr hq hq' href href' h
  have hf0 : 0 < f := by omega
  rw [show ncycles freq = 32 by rw [ncycles, if_neg hne]] at h6
  have hus : 2 ^ 32 * (c.div * 1000) / f < 2 ^ 32 := (Nat.div_lt_iff_lt_mul hf0).2 (by omega)
  rw [Nat.mod_eq_of_lt hus] at h6
  have eq : ∀ t, t < c.period → (sysTickMilli freq c).interp t = t * c.ms / 2 ^ 32 := by
    intro t ht
    have ht24 : t < 2 ^ 24 := ht.trans h2
    simp only [sysTickMilli, interpMs]
    have a1 : t * c.ms ≤ t * 2 ^ 32 := Nat.mul_le_mul_left _ (by omega)
    exact Nat.mod_eq_of_lt ((Nat.div_lt_iff_lt_mul (by norm_num)).2 (by omega))
  have key : ∀ t, t < c.period → (sysTickMilli freq c).interp t * f ≤ t * c.div * 1000 ∧ t * c.div * 1000 < ((sysTickMilli freq c).interp t + 2) * f := by
    intro t ht
    rw [eq t ht]
    exact scaled hf0 (by omega) h6
  refine ⟨key, ?_, ?_⟩
  · intro a b hab hb
    change b < c.period at hb
    rw [eq a (by omega), eq b hb]
    exact Nat.div_le_div_right (Nat.mul_le_mul_right _ hab)
  · intro a ha
    obtain ⟨h1, -⟩ := key a ha
    obtain ⟨k, hk⟩ := hdvd
    have hstep : (sysTickMilli freq c).step = k := by
      simp only [sysTickMilli]; rw [hk, Nat.mul_div_cancel_left _ hq]
    rw [hstep]
    apply Nat.le_of_mul_le_mul_right _ hf0
    apply Nat.le_of_mul_le_mul_right _ hq
    change a < c.period at ha
    calc (sysTickMilli freq c).interp a * f * freq ≤ a * c.div * 1000 * freq := Nat.mul_le_mul_right _ h1
      _ ≤ c.period * c.div * 1000 * freq := Nat.mul_le_mul_right _ (Nat.mul_le_mul_right _ (Nat.mul_le_mul_right _ ha.le))
      _ = 1000 * (c.period * freq * c.div) := by ring
      _ ≤ 1000 * f := Nat.mul_le_mul_left _ h3
      _ = k * f * freq := by nth_rewrite 1 [hk]; ring

/-- C162: if the frequency asked for divides that of the SysTick, the precise clock is right for ever, within two microseconds. -/
theorem C162_right_partial {rnd : ℚ → ℚ} (hr : Props.DoubleRounding rnd) {f freq ref : Nat} (hf : f ≤ 10 ^ 9) (hq : 0 < freq) (hdvd : freq ∣ 1000) (href : 0 < ref)
    (href' : ref ≤ 16) {c : Setup} (h : setup rnd f freq ref = some c) (hfit : freq = 1000 ∨ c.div * 1000000 < f) (hd : freq * c.div ∣ f) (t : Nat) :
    shown (sysTickMicro freq c) t * f ≤ t * c.div * 1000000 ∧ t * c.div * 1000000 < (shown (sysTickMicro freq c) t + 2) * f := by
  have hq' : freq ≤ 1000 := Nat.le_of_dvd (by norm_num) hdvd
  obtain ⟨h1, h2, h3, h4⟩ := C162_period hr hq hq' href href' h
  obtain ⟨h5, -⟩ := C162_micro_partial hr hf hq hdvd href href' h hfit
  have hper : c.period * freq * c.div = f := by
    obtain ⟨k, rfl⟩ := hd
    have e1 : c.period * freq * c.div = freq * c.div * c.period := by ring
    have e2 : (c.period + 1) * freq * c.div = freq * c.div * (c.period + 1) := by ring
    rw [e1] at h3 ⊢
    rw [e2] at h4
    have hp : 0 < freq * c.div := by
      rcases Nat.eq_zero_or_pos (freq * c.div) with h0 | h0
      · rw [h0] at h4; omega
      · exact h0
    have := Nat.le_of_mul_le_mul_left h3 hp
    have := Nat.lt_of_mul_lt_mul_left h4
    rw [show c.period = k by omega]
  obtain ⟨k, hk⟩ := hdvd
  have hstep : (sysTickMicro freq c).step = k * 1000 := by
    simp only [sysTickMicro]; rw [hk, Nat.mul_div_cancel_left _ hq]
  obtain ⟨g1, g2⟩ := h5 (t % c.period) (Nat.mod_lt _ h1)
  simp only [shown]
  rw [hstep, show (sysTickMicro freq c).period = c.period from rfl]
  have e0 : k * 1000 * (t / c.period) * f = c.period * (t / c.period) * c.div * 1000000 := by
    rw [← hper, show (1000000 : Nat) = 1000 * 1000 from rfl]; nth_rewrite 2 [hk]; ring
  have e1 : t * c.div * 1000000 = c.period * (t / c.period) * c.div * 1000000 + t % c.period * c.div * 1000000 := by
    conv_lhs => rw [← Nat.div_add_mod t c.period]
    ring
  rw [Nat.add_assoc, Nat.add_mul, Nat.add_mul _ (_ + 2), e0, e1]
  exact ⟨Nat.add_le_add_left g1 _, Nat.add_lt_add_left g2 _⟩

/-- every hypothesis of the theorems above is met by the F4 at 168 MHz with four interrupts per second, and by the H7 at 480 MHz with a thousand -/
example : (∃ c, setup id 168000000 4 8 = some c ∧ c.div * 1000000 < 168000000 ∧ 4 * c.div ∣ 168000000 ∧ 4 ∣ 1000) ∧
    ∃ c, setup id 480000000 1000 1 = some c ∧ 1000 * c.div ∣ 480000000 :=
  ⟨⟨⟨8, 5250000, 204522252, 204522⟩, by decide +kernel⟩, ⟨⟨1, 480000, 2184, 2⟩, by decide +kernel⟩⟩

/-- C162: with the slower clock at exactly `ref` MHz (the internal oscillator of an STM32F1 or F3) the factor is 2^32 and becomes zero: between interrupts the precise clock stands still, for
every frequency of the interrupt but 1000. -/
theorem C162_still_counterexample {rnd : ℚ → ℚ} (hr : Props.DoubleRounding rnd) {freq ref : Nat} (hq : 0 < freq) (hq' : freq < 1000) (href : 1 < ref) (href' : ref ≤ 16) {c : Setup}
    (h : setup rnd (ref * 1000000) freq ref = some c) (t : Nat) : (sysTickMicro freq c).interp t = 0 := by
  obtain ⟨h1, -, -, -, -, h2, -⟩ := setup_facts hr hq hq'.le (by omega) href' h
  rw [if_neg (by omega)] at h1
  have : c.us = 0 := by
    rw [h2, h1, ncycles, if_neg (by omega), Nat.mul_div_cancel _ (by omega), Nat.mod_self]
  simp only [sysTickMicro, interpUs, if_neg (show ¬ freq = 1000 by omega), this, Nat.mul_zero, Nat.zero_div, Nat.zero_mod]

/-- at 8 MHz with four interrupts per second: a quarter of a second without a change, and then all at once -/
theorem C162_still_example : setup id 8000000 4 8 = some ⟨8, 250000, 0, 4294967⟩ ∧ shown (sysTickMicro 4 ⟨8, 250000, 0, 4294967⟩) 249999 = 0 ∧
    shown (sysTickMicro 4 ⟨8, 250000, 0, 4294967⟩) 250000 = 250000 := by decide +kernel

/-- C162: a frequency which does not divide 1000, as the option of FreeRTOS accepts if the remainder is one: the handler adds less than `now` did before, and the clock goes back. -/
theorem C162_remainder_counterexample : 1000 % 9 = 1 ∧ setup id 72000000 9 8 = some ⟨8, 1000000, 477218588, 477218⟩ ∧
    shown (sysTickMicro 9 ⟨8, 1000000, 477218588, 477218⟩) 1000000 < shown (sysTickMicro 9 ⟨8, 1000000, 477218588, 477218⟩) 999999 := by decide +kernel

/-! ### AVR -/

private theorem avr_facts {f : Nat} (h1 : 1000 ≤ f) (h2 : f < 65536000) :
    0 < avrDiv f ∧ avrDiv f ≤ 256 ∧ avrDiv f * 1000 ≤ f ∧ avrOverflow f ≤ 255 ∧ avrScaler f < 2 ^ 16 := by
  unfold avrScaler avrOverflow avrDiv
  split_ifs with a b c
  · exact ⟨by omega, by omega, by omega, by omega, (Nat.div_lt_iff_lt_mul (by omega)).2 (by omega)⟩
  · exact ⟨by omega, by omega, by omega, by omega, (Nat.div_lt_iff_lt_mul (by omega)).2 (by omega)⟩
  · exact ⟨by omega, by omega, by omega, by omega, (Nat.div_lt_iff_lt_mul (by omega)).2 (by omega)⟩
  · exact ⟨by omega, by omega, by omega, by omega, (Nat.div_lt_iff_lt_mul (by omega)).2 (by omega)⟩

private theorem avr_product {f v : Nat} (h1 : 1000 ≤ f) (hv : v ≤ avrOverflow f) : v * avrScaler f ≤ 64000 := by
  have a1 : avrScaler f * f ≤ avrDiv f * 1000000 * 2 ^ 6 := Nat.div_mul_le_self _ _
  have a2 : avrOverflow f * (avrDiv f * 1000) ≤ f := Nat.div_mul_le_self _ _
  apply Nat.le_of_mul_le_mul_right _ (show 0 < f by omega)
  calc v * avrScaler f * f ≤ avrOverflow f * avrScaler f * f := Nat.mul_le_mul_right _ (Nat.mul_le_mul_right _ hv)
    _ = avrOverflow f * (avrScaler f * f) := Nat.mul_assoc _ _ _
    _ ≤ avrOverflow f * (avrDiv f * 1000000 * 2 ^ 6) := Nat.mul_le_mul_left _ a1
    _ = 64000 * (avrOverflow f * (avrDiv f * 1000)) := by ring
    _ ≤ 64000 * f := Nat.mul_le_mul_left _ a2

private theorem avr_interp {f v : Nat} (h1 : 1000 ≤ f) (h2 : f < 65536000) (hv : v ≤ avrOverflow f) : avrInterp f v = v * avrScaler f / 2 ^ 6 := by
  have := avr_product h1 hv
  rw [avrInterp, Nat.mod_eq_of_lt (avr_facts h1 h2).2.2.2.2, Nat.mod_eq_of_lt (by omega)]

/-- C163: on AVR the counter and the compare value fit in eight bits and the factors in sixteen, and between two interrupts the precise clock adds the time since the last one, less than five microseconds too
little and never too much, without going backwards; for every frequency from 1 kHz to 65.5 MHz. -/
theorem C163_interpolation {f : Nat} (h1 : 1000 ≤ f) (h2 : f < 65536000) :
    (avrMicro f).period ≤ 256 ∧ (∀ v, v < (avrMicro f).period → (avrMicro f).interp v * f ≤ v * avrDiv f * 1000000 ∧
      v * avrDiv f * 1000000 < ((avrMicro f).interp v + 5) * f) ∧ Monotone (avrMicro f) := by
  obtain ⟨-, -, -, f1, -⟩ := avr_facts h1 h2
  refine ⟨by simp only [avrMicro]; omega, fun v hv => ?_, ?_, ?_⟩
  · simp only [avrMicro] at hv ⊢
    rw [avr_interp h1 h2 (by omega)]
    have a1 : avrScaler f * f ≤ avrDiv f * 1000000 * 2 ^ 6 := Nat.div_mul_le_self _ _
    have a2 : avrDiv f * 1000000 * 2 ^ 6 < (avrScaler f + 1) * f := Nat.lt_mul_of_div_lt (Nat.lt_succ_self _) (by omega)
    have b1 : v * avrScaler f / 2 ^ 6 * 2 ^ 6 ≤ v * avrScaler f := Nat.div_mul_le_self _ _
    have b2 : v * avrScaler f < (v * avrScaler f / 2 ^ 6 + 1) * 2 ^ 6 := Nat.lt_mul_of_div_lt (Nat.lt_succ_self _) (by norm_num)
    generalize v * avrScaler f / 2 ^ 6 = q at *
    constructor
    · apply Nat.le_of_mul_le_mul_right _ (show 0 < 2 ^ 6 by norm_num)
      calc q * f * 2 ^ 6 = q * 2 ^ 6 * f := by ring
        _ ≤ v * avrScaler f * f := Nat.mul_le_mul_right _ b1
        _ = v * (avrScaler f * f) := by ring
        _ ≤ v * (avrDiv f * 1000000 * 2 ^ 6) := Nat.mul_le_mul_left _ a1
        _ = v * avrDiv f * 1000000 * 2 ^ 6 := by ring
    · apply Nat.lt_of_mul_lt_mul_right (a := 2 ^ 6)
      calc v * avrDiv f * 1000000 * 2 ^ 6 = v * (avrDiv f * 1000000 * 2 ^ 6) := by ring
        _ ≤ v * ((avrScaler f + 1) * f) := Nat.mul_le_mul_left _ a2.le
        _ = (v * avrScaler f + v) * f := by ring
        _ < ((q + 1) * 2 ^ 6 + 4 * 2 ^ 6) * f := Nat.mul_lt_mul_of_pos_right (by omega) (by omega)
        _ = (q + 5) * f * 2 ^ 6 := by ring
  · intro a b hab hb
    simp only [avrMicro] at hb ⊢
    rw [avr_interp h1 h2 (by omega), avr_interp h1 h2 (by omega)]
    exact Nat.div_le_div_right (Nat.mul_le_mul_right _ hab)
  · intro a ha
    simp only [avrMicro] at ha ⊢
    rw [avr_interp h1 h2 (by omega)]
    have := avr_product (v := a) h1 (by omega)
    omega

/-- the values for 16 MHz; the last clock before the interrupt -/
example : avrDiv 16000000 = 64 ∧ avrOverflow 16000000 = 250 ∧ avrScaler 16000000 = 256 ∧ (avrMicro 16000000).interp 250 = 1000 ∧ (avrMicro 16000000).interp 249 = 996 := by decide +kernel

/-- C163: the timer counts from zero to `overflow`, one clock more than the milliseconds it is meant to be: on every AVR, at every frequency, the clocks are slow. -/
theorem C163_slow_counterexample (f : Nat) : f < (avrMicro f).period * (avrDiv f * 1000) ∧ (avrDiv f * 1000 ∣ f → (avrMicro f).period * (avrDiv f * 1000) = f + avrDiv f * 1000) := by
  have h0 : 0 < avrDiv f * 1000 := by unfold avrDiv; split_ifs <;> norm_num
  simp only [avrMicro, avrOverflow]
  refine ⟨Nat.lt_mul_of_div_lt (Nat.lt_succ_self _) h0, fun h => ?_⟩
  rw [Nat.add_mul, Nat.div_mul_cancel h, Nat.one_mul]

/-- at 8 MHz an hour of clocks is shown as 28 seconds less, and at 16 MHz as 14 -/
theorem C163_slow_example : shown (avrMicro 8000000) (3600 * 125000) = 3571428576 ∧ shown (avrMicro 16000000) (3600 * 250000) = 3585657372 := by decide +kernel

/-! ### Together -/

/-- C161 for the SysTick: the difference of two results is the time between two moments during the calls, in microseconds, wrong by less than two, for every interleaving of the timer, its handler and the calls. -/
theorem C162_elapsed_partial {rnd : ℚ → ℚ} (hr : Props.DoubleRounding rnd) {f freq ref : Nat} (hf : f ≤ 10 ^ 9) (hq : 0 < freq) (hdvd : freq ∣ 1000) (href : 0 < ref)
    (href' : ref ≤ 16) {c : Setup} (h : setup rnd f freq ref = some c) (hfit : freq = 1000 ∨ c.div * 1000000 < f) (hd : freq * c.div ∣ f) {s : State} {tr : List Ev}
    (hs : Reach (sysTickMicro freq c) (Alone (sysTickMicro freq c)) s tr) :
    (calls tr).Pairwise fun a b => ∃ u v e, a.1 ≤ u ∧ u ≤ a.2.2 ∧ b.1 ≤ v ∧ v ≤ b.2.2 ∧ u ≤ v ∧ (b.2.1 + 2 ^ 32 - a.2.1) % 2 ^ 32 = e % 2 ^ 32 ∧
      e * f < (v - u) * c.div * 1000000 + 2 * f ∧ (v - u) * c.div * 1000000 < (e + 2) * f := by
  have hq' : freq ≤ 1000 := Nat.le_of_dvd (by norm_num) hdvd
  have h1 := (C162_period hr hq hq' href href' h).1
  have h2 := (C162_micro_partial hr hf hq hdvd href href' h hfit).2
  refine (C161_elapsed_partial (cfg := sysTickMicro freq c) h1 Nat.one_pos rfl h2 hs).imp ?_
  rintro a b ⟨u, v, k1, k2, k3, k4, k5, k6, k7⟩
  refine ⟨u, v, _, k1, k2, k3, k4, k5, k7, ?_⟩
  obtain ⟨u1, u2⟩ := C162_right_partial hr hf hq hdvd href href' h hfit hd u
  obtain ⟨v1, v2⟩ := C162_right_partial hr hf hq hdvd href href' h hfit hd v
  have e1 : (v - u) * c.div * 1000000 = v * c.div * 1000000 - u * c.div * 1000000 := by rw [Nat.sub_mul, Nat.sub_mul]
  have e2 : u * c.div * 1000000 ≤ v * c.div * 1000000 := Nat.mul_le_mul_right _ (Nat.mul_le_mul_right _ k5)
  rw [e1, Nat.add_mul, Nat.sub_mul]
  rw [Nat.add_mul] at u2 v2
  have e3 := Nat.mul_le_mul_right f k6
  omega

/-- C161 for AVR: results do not go backwards, and differ by what the clock shows between two moments during the calls, though the variable is read in four parts. -/
theorem C163_elapsed_partial {f : Nat} (h1 : 1000 ≤ f) (h2 : f < 65536000) {s : State} {tr : List Ev} (hs : Reach (avrMicro f) (Alone (avrMicro f)) s tr) :
    (calls tr).Pairwise fun a b => ∃ u v, a.1 ≤ u ∧ u ≤ a.2.2 ∧ b.1 ≤ v ∧ v ≤ b.2.2 ∧ u ≤ v ∧ shown (avrMicro f) u ≤ shown (avrMicro f) v ∧
      (b.2.1 + 2 ^ 32 - a.2.1) % 2 ^ 32 = (shown (avrMicro f) v - shown (avrMicro f) u) % 2 ^ 32 :=
  C161_elapsed_partial (Nat.succ_pos _) (by simp only [avrMicro]; norm_num) rfl (C163_interpolation h1 h2).2.2 hs

end Props.SystemClock
