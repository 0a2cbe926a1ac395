import Verif.Lemmas.Timer
set_option autoImplicit false
/- Properties C10-C14. -/
namespace Props
open Modm.Timer

/-- C10: a timeout armed at absolute time `t0` for `i` ticks is reported expired at time `t` exactly when
`i` ticks have passed, wherever the counter wraps in between, as long as it is polled within one counter
period of the arming. `isArmed` is the exact opposite. -/
theorem C10_timeout_expiry (W t0 i t : Nat) (h : t0 ≤ t) (hp : t - t0 < W) (x : T) :
    (isExpired W t (restart W t0 i x)).2 = decide (t0 + i ≤ t) ∧
    (isArmed W t (restart W t0 i x)).2 = decide (t < t0 + i) := by
  have hW : 0 < W := by omega
  have hn := sub_now hW h hp
  have hc : checkExpiration W t (restart W t0 i x) = decide (t0 + i ≤ t) := by
    simp only [checkExpiration, restart, hn]
    simp [ARMED]; omega
  simp only [isExpired, isArmed, state, hc]
  by_cases he : t0 + i ≤ t
  · have : ¬ t < t0 + i := by omega
    simp [he, this, restart, EXPIRED, STATUS_MASK, ARMED]
  · have : t < t0 + i := by omega
    simp [he, this, restart, EXPIRED, STATUS_MASK, ARMED]

-- armed 3 ticks before the 16-bit counter wraps
example : (isExpired 65536 65543 (restart 65536 65533 10 init)).2 = true ∧
    (isExpired 65536 65542 (restart 65536 65533 10 init)).2 = false := by decide

/-- C10/C11: every history of calls within the documented limits (see `Spec.Timer.step`) gives exactly the
answers of an ideal timeout on a clock that never wraps: `execute` is true at the first call that sees the
expiry and at no other. -/
theorem C11_timeout_history (W : Nat) (hW : 0 < W) (ops : List (Nat × Op)) (a : Spec.Timer.A)
    (rs : List (Option Bool)) (hlegal : Spec.Timer.run W .off ops = some (a, rs)) :
    (run W init ops).2 = rs :=
  (run_refines hW ops (abs_init W) hlegal).1

example : Spec.Timer.run 16 .off
    [(3, .isStopped), (14, .restart 5), (18, .execute), (18, .isArmed), (20, .isExpired), (60, .execute),
     (61, .execute), (62, .isExpired), (70, .restartSame), (74, .execute), (75, .execute), (76, .stop), (77, .execute)] =
    some (.off, [some true, none, some false, some true, some true, some true, some false, some true, none,
      some false, some true, none, some false]) := by decide

/-- number of `execute` calls in a history that returned true -/
def fires : List (Nat × Op) → List (Option Bool) → Nat
  | (_, .execute) :: os, some true :: rs => fires os rs + 1
  | _ :: os, _ :: rs => fires os rs
  | _, _ => 0

/-- no (re)start in the history -/
def noRestart (os : List (Nat × Op)) : Prop :=
  ∀ p ∈ os, match p.2 with | .restart _ | .restartSame => False | _ => True

/-- executed or stopped timers stay silent -/
theorem silent_run (W : Nat) (os : List (Nat × Op)) : ∀ (x : T), noRestart os →
    (x.state = STOPPED ∨ x.state = EXPIRED ||| EXECUTED) → fires os (run W x os).2 = 0 := by
  induction os with
  | nil => intro x _ _; rfl
  | cons o os ih =>
    intro x hn hx
    obtain ⟨t, o⟩ := o
    have hn' : noRestart os := fun p hp => hn p (List.mem_cons_of_mem _ hp)
    have ho := hn (t, o) (List.mem_cons_self ..)
    have hq : ∀ (b : BitVec 8 → Bool), (state W t x).1 = x := by
      intro _; rcases hx with hx | hx <;>
        simp [state, checkExpiration, hx, ARMED, STOPPED, EXPIRED, EXECUTED]
    have hq := hq (fun _ => true)
    cases o with
    | restart i => exact ho.elim
    | restartSame => exact ho.elim
    | stop => simp only [run, step, fires]; exact ih _ hn' (Or.inl rfl)
    | isStopped => simp only [run, step, fires]; exact ih _ hn' hx
    | isArmed => simp only [run, step, fires, isArmed, hq]; exact ih _ hn' hx
    | isExpired => simp only [run, step, fires, isExpired, hq]; exact ih _ hn' hx
    | execute =>
      have he : execute W t x = (x, false) := by
        rcases hx with hx | hx <;> simp [execute, hx, STOPPED, EXPIRED, EXECUTED]
      simp only [run, step, he, fires]; exact ih _ hn' hx

/-- C11: without a new (re)start, `execute` returns true at most once over any history of calls at any
times whatsoever (even non-monotone or beyond the counter period), from any timer state. -/
theorem C11_timeout_fires_at_most_once (W : Nat) (os : List (Nat × Op)) (hn : noRestart os) :
    ∀ (x : T), fires os (run W x os).2 ≤ 1 := by
  induction os with
  | nil => intro x; simp [fires]
  | cons o os ih =>
    intro x
    obtain ⟨t, o⟩ := o
    have hn' : noRestart os := fun p hp => hn p (List.mem_cons_of_mem _ hp)
    have ho := hn (t, o) (List.mem_cons_self ..)
    cases o with
    | restart i => exact ho.elim
    | restartSame => exact ho.elim
    | execute =>
      cases hb : (execute W t x).2 with
      | false => simp only [run, step, hb, fires]; exact ih hn' _
      | true =>
        have hs : (execute W t x).1.state = EXPIRED ||| EXECUTED := by
          unfold execute at *
          split <;> simp_all
          split <;> simp_all
        simp only [run, step, hb, fires]
        rw [silent_run W os _ hn' (Or.inr hs)]; exact Nat.le_refl _
    | stop => simp only [run, step, fires]; exact ih hn' _
    | isStopped => simp only [run, step, fires]; exact ih hn' _
    | isArmed => simp only [run, step, fires]; exact ih hn' _
    | isExpired => simp only [run, step, fires]; exact ih hn' _

/-- C11: after `stop()` and until the next (re)start `execute` never returns true. -/
theorem C11_timeout_silent_after_stop (W : Nat) (os : List (Nat × Op)) (hn : noRestart os) (x : T) :
    fires os (run W (stop x) os).2 = 0 := silent_run W os _ hn (Or.inl rfl)

example : noRestart [(5, .execute), (9, .isExpired), (2, .execute)] ∧
    fires [(5, .execute), (9, .isExpired), (2, .execute)]
      (run 16 (restart 16 1 3 init) [(5, .execute), (9, .isExpired), (2, .execute)]).2 = 1 := by
  refine ⟨?_, by decide⟩
  intro p hp; simp at hp; rcases hp with rfl | rfl | rfl <;> trivial

/-- C12, exact behaviour: `remaining()` of a running timeout is off by the number of counter wraps between
arming and query times the counter period. -/
theorem C12_remaining_exact (W t0 i t : Nat) (x : T) :
    remaining W t (restart W t0 i x) =
      ((t0 + i : Nat) : Int) - t + W * ((t / W : Nat) - (t0 / W : Nat) : Int) := by
  have e1 : ((t % W : Nat) : Int) = t - W * (t / W : Nat) := by
    have := Nat.mod_add_div t W
    have : ((t % W + W * (t / W) : Nat) : Int) = t := by rw [this]
    rw [Int.natCast_add, Int.natCast_mul] at this; omega
  have e2 : ((t0 % W : Nat) : Int) = t0 - W * (t0 / W : Nat) := by
    have := Nat.mod_add_div t0 W
    have : ((t0 % W + W * (t0 / W) : Nat) : Int) = t0 := by rw [this]
    rw [Int.natCast_add, Int.natCast_mul] at this; omega
  have hs : ((restart W t0 i x).state == STOPPED) = false := by simp [restart, ARMED, STOPPED]
  simp only [remaining, hs]
  simp only [restart, now, Bool.false_eq_true, if_false]
  rw [e1, e2, Int.mul_sub, Int.natCast_add]
  omega

/-- C12 (proved part): correct whenever the counter has not wrapped between arming and query. Missing: the
wrapped case, where it is false (next theorem). -/
theorem C12_remaining_partial (W t0 i t : Nat) (x : T) (hsame : t / W = t0 / W) :
    remaining W t (restart W t0 i x) = ((t0 + i : Nat) : Int) - t := by
  rw [C12_remaining_exact, hsame, Int.sub_self, Int.mul_zero, Int.add_zero]

/-- C12 is false across a wrap: whenever exactly one wrap lies between arming and query, the answer is too
large by a whole counter period; e.g. an already expired timeout claims almost 65 s to go. -/
theorem C12_remaining_wrap_counterexample (W t0 i t : Nat) (hW : 0 < W) (x : T) (h : t / W = t0 / W + 1) :
    remaining W t (restart W t0 i x) ≠ ((t0 + i : Nat) : Int) - t := by
  rw [C12_remaining_exact, h]
  simp only [Int.natCast_add, Int.natCast_one]
  have : ((t0 / W : Nat) : Int) + 1 - (t0 / W : Nat) = 1 := by omega
  rw [this, Int.mul_one]; omega

example : remaining 65536 65540 (restart 65536 65533 5 init) = 65534 ∧
    (isExpired 65536 65540 (restart 65536 65533 5 init)).2 = true := by decide

/-- C13 (proved part): a poll at `t1 ≤ t2` of a periodic timer armed at phase `t0` with interval `i` that is
due (`t0 + i ≤ t1`), within one counter period: the loop ends, the phase advances to the last multiple of `i`
not after `t2`, the timer is armed again, and the result is the number of elapsed periods, except that it is
one less when polled exactly on the second or a later multiple. -/
theorem C13_periodic_partial (W t0 i t1 t2 : Nat) (x : T) (hi : 0 < i) (hdue : t0 + i ≤ t1) (h12 : t1 ≤ t2)
    (hp : t2 - t0 < W) :
    ∃ n, ∀ fuel, n ≤ fuel →
    pexecute W t1 t2 fuel (restart W t0 i x) =
      some (restart W (t0 + Spec.Timer.periods t0 i t2 * i) i x,
        if (t2 - t0) % i = 0 ∧ 2 ≤ Spec.Timer.periods t0 i t2 then Spec.Timer.periods t0 i t2 - 1
        else Spec.Timer.periods t0 i t2) := by
  refine ⟨(t2 - t0) / i, fun fuel hf => ?_⟩
  have hW : 0 < W := by omega
  have hn := sub_now hW (show t0 ≤ t1 by omega) (show t1 - t0 < W by omega)
  have he : execute W t1 (restart W t0 i x) = (⟨now W t0, i, EXPIRED ||| EXECUTED⟩, true) := by
    have : i ≤ t1 - t0 := by omega
    simp [execute, checkExpiration, restart, hn, this, ARMED, EXECUTED, STOPPED, EXPIRED]
  have hi' : i ≠ 0 := by omega
  have := catchUp_eq (W := W) hi fuel t0 0 (show t0 + i ≤ t2 by omega) hp hf
  unfold pexecute
  rw [he]
  simp [restart, hi', this, Spec.Timer.periods, added]
  rfl

/-- C13 is false at exact multiples: armed at 20 with interval 10 and polled at 100, eight periods have
elapsed but `execute()` returns 7; polled one tick later it returns 8. (The project's own test pins this.) -/
theorem C13_periodic_count_counterexample :
    (pexecute 65536 100 100 100 (restart 65536 20 10 init)).map (·.2) = some 7 ∧
    (pexecute 65536 101 101 100 (restart 65536 20 10 init)).map (·.2) = some 8 ∧
    Spec.Timer.periods 20 10 100 = 8 := by decide

/-- a poll before the deadline changes nothing -/
theorem C13_periodic_not_due (W t0 i t1 t2 fuel : Nat) (x : T) (h0 : t0 ≤ t1) (hnot : t1 < t0 + i)
    (hp : t1 - t0 < W) :
    pexecute W t1 t2 fuel (restart W t0 i x) = some (restart W t0 i x, 0) := by
  have hW : 0 < W := by omega
  have hn := sub_now hW h0 hp
  have : ¬ i ≤ t1 - t0 := by omega
  simp [pexecute, execute, checkExpiration, restart, hn, this, ARMED, EXECUTED, STOPPED, EXPIRED]

/-- phase reached after polls (second clock read given), by the ideal timer -/
def phase (i : Nat) : Nat → List (Nat × Nat) → Nat
  | t0, [] => t0
  | t0, (t1, t2) :: ps => phase i (if t0 + i ≤ t1 then t0 + Spec.Timer.periods t0 i t2 * i else t0) ps

/-- polls ordered in time and each within one counter period of the current phase -/
def pollsOk (W i : Nat) : Nat → List (Nat × Nat) → Prop
  | _, [] => True
  | t0, (t1, t2) :: ps => t0 ≤ t1 ∧ t1 ≤ t2 ∧ t2 - t0 < W ∧
      pollsOk W i (if t0 + i ≤ t1 then t0 + Spec.Timer.periods t0 i t2 * i else t0) ps

/-- C13 (phase never drifts): after any history of polls the timer is armed at an exact multiple of the interval
after the original start, namely the ideal phase. -/
theorem C13_periodic_phase (W i : Nat) (hi : 0 < i) (ps : List (Nat × Nat)) : ∀ (t0 : Nat) (x : T),
    pollsOk W i t0 ps →
    (∃ k, phase i t0 ps = t0 + k * i) ∧
    ∃ n, ∀ fuel, n ≤ fuel → ∃ cs, prun W fuel (restart W t0 i x) ps = some (restart W (phase i t0 ps) i x, cs) := by
  induction ps with
  | nil => intro t0 x _; exact ⟨⟨0, by simp [phase]⟩, 0, fun fuel _ => ⟨[], rfl⟩⟩
  | cons p ps ih =>
    intro t0 x h
    obtain ⟨t1, t2⟩ := p
    obtain ⟨h1, h2, h3, h4⟩ := h
    obtain ⟨⟨k, hk⟩, n, hn⟩ := ih _ x h4
    by_cases hdue : t0 + i ≤ t1
    · rw [if_pos hdue] at hk hn
      refine ⟨⟨Spec.Timer.periods t0 i t2 + k, by simp [phase, hdue, hk, Nat.add_mul]; omega⟩, ?_⟩
      obtain ⟨m, hm⟩ := C13_periodic_partial W t0 i t1 t2 x hi hdue h2 h3
      refine ⟨max n m, fun fuel hf => ?_⟩
      obtain ⟨cs, hcs⟩ := hn fuel (by omega)
      exact ⟨_ :: cs, by simp [prun, hm fuel (by omega), hcs, phase, hdue]; exact rfl⟩
    · rw [if_neg hdue] at hk hn
      refine ⟨⟨k, by simp [phase, hdue, hk]⟩, n, fun fuel hf => ?_⟩
      obtain ⟨cs, hcs⟩ := hn fuel hf
      refine ⟨0 :: cs, ?_⟩
      simp [prun, C13_periodic_not_due W t0 i t1 t2 fuel x h1 (by omega) (by omega), hcs, phase, hdue]

example : pollsOk 64 10 5 [(7, 7), (15, 16), (47, 47), (70, 70)] ∧
    phase 10 5 [(7, 7), (15, 16), (47, 47), (70, 70)] = 65 := by
  simp [pollsOk, phase, Spec.Timer.periods]

/-- C14 (proved part): when the requested unit is not coarser than the timer's tick (`num ≤ den`), `restart`
either reports an assertion or arms the exact (rounded-down) converted interval. Missing: coarser units, where
it is false (next theorem). -/
theorem C14_interval_partial (W t num den : Nat) (c : Int) (x : T) (hden : 0 < den) (hu : num ≤ den)
    (hok : (restartFrom W t c num den x).2 = false) :
    0 ≤ c ∧ (restartFrom W t c num den x).1 = restart W t (c.toNat * num / den) x := by
  unfold restartFrom at hok ⊢
  split at hok
  · rename_i h0
    refine ⟨h0, ?_⟩
    simp at hok
    have hle : c.toNat * num / den ≤ c.toNat := by
      calc c.toNat * num / den ≤ c.toNat * den / den := Nat.div_le_div_right (Nat.mul_le_mul_left _ hu)
        _ = c.toNat := Nat.mul_div_cancel _ hden
    have hW : 0 < W ∨ W = 0 := by omega
    rw [if_pos h0]
    rcases hW with hW | rfl
    · simp only [restart, T.mk.injEq, true_and, and_true]
      exact Nat.mod_eq_of_lt (by omega)
    · simp [restart]
  · simp at hok

example : (restartFrom 65536 0 1999 1 1000 init).2 = false ∧
    (restartFrom 65536 0 1999 1 1000 init).1 = restart 65536 0 1 init := by decide

/-- C14 is false for coarser units: a 16-bit millisecond timer asked for 70 s reports no assertion and arms
4464 ms; conversely 100 000 µs (100 ms) raises an assertion although it fits. -/
theorem C14_interval_counterexample :
    restartFrom 65536 0 70 1000 1 init = (restart 65536 0 4464 init, false) ∧
    (restartFrom 65536 0 100000 1 1000 init) = (restart 65536 0 100 init, true) := by decide

end Props
