import Verif.Model.ThreadSemaphore

set_option autoImplicit false

namespace Props.ThreadSemaphore
open Model.ThreadSemaphore

/-- The specification: a counter.  A release counts up to the maximum, a successful acquire counts down and
needs a counter that is not zero, everything else leaves the counter. -/
def specStep (max n : Nat) : Ev → Option Bool → Option Nat
  | .release _, _ => some (if n < max then n + 1 else n)
  | _, some true => if n = 0 then none else some (n - 1)
  | _, _ => some n

def spec (max : Nat) : Nat → List Ev → List (Option Bool) → Option Nat
  | n, [], [] => some n
  | n, e :: es, o :: os => (specStep max n e o).bind fun n => spec max n es os
  | _, _, _ => none

def isRelease : Ev → Bool
  | .release _ => true
  | _ => false

theorem tryTake_spec (s : St) (a b : Nat) (max : Nat) (e : Ev) (he : isRelease e = false) :
    specStep max s.count e (tryTake s a b).2 = some (tryTake s a b).1.count ∧ (tryTake s a b).1.max = s.max := by
  unfold tryTake
  by_cases c : s.count = 0
  · rw [if_pos c]; cases e <;> first | (simp [isRelease] at he; done) | simp [specStep]
  · rw [if_neg c]; cases e <;> first | (simp [isRelease] at he; done) | simp [specStep, c]

theorem step_spec (s s' : St) (e : Ev) (o : Option Bool) (h : step s e = some (s', o)) :
    specStep s.max s.count e o = some s'.count ∧ s'.max = s.max := by
  cases e with
  | acquire t =>
    simp only [step, Option.some.injEq] at h
    have := tryTake_spec s s.now t s.max (.acquire t) rfl
    rw [h] at this; exact this
  | release k =>
    simp only [step] at h
    by_cases c : s.count < s.max
    · rw [if_pos c] at h
      cases g : notifyOne s.waiters k with
      | none => rw [g] at h; simp at h
      | some ws =>
        rw [g] at h; simp only [Option.map_some, Option.some.injEq, Prod.mk.injEq] at h
        obtain ⟨rfl, rfl⟩ := h
        simp [specStep, c]
    · rw [if_neg c] at h; simp only [Option.some.injEq, Prod.mk.injEq] at h
      obtain ⟨rfl, rfl⟩ := h
      simp [specStep, c]
  | resume i =>
    simp only [step] at h
    cases g : s.waiters[i]? with
    | none => rw [g] at h; simp at h
    | some w =>
      rw [g] at h; simp only at h
      split at h
      · simp only [Option.some.injEq, Prod.mk.injEq] at h
        obtain ⟨rfl, rfl⟩ := h
        simp [specStep]
      · simp only [Option.some.injEq] at h
        have := tryTake_spec { s with waiters := s.waiters.eraseIdx i } w.since w.timeout s.max (.resume i) rfl
        rw [h] at this; exact this
  | tick =>
    simp only [step, Option.some.injEq, Prod.mk.injEq] at h
    obtain ⟨rfl, rfl⟩ := h
    simp [specStep]

theorem run_cons {s s' : St} {e : Ev} {es : List Ev} {os : List (Option Bool)} (h : run s (e :: es) = some (s', os)) :
    ∃ s1 o os1, step s e = some (s1, o) ∧ run s1 es = some (s', os1) ∧ os = o :: os1 := by
  simp only [run, bind, Option.bind_eq_some_iff, pure, Option.some.injEq, Prod.mk.injEq, Prod.exists] at h
  obtain ⟨s1, o, h1, s2, os2, h2, rfl, rfl⟩ := h
  exact ⟨s1, o, os2, h1, h2, rfl⟩

theorem run_spec (es : List Ev) : ∀ (s s' : St) (os : List (Option Bool)), run s es = some (s', os) →
    spec s.max s.count es os = some s'.count ∧ s'.max = s.max := by
  induction es with
  | nil =>
    intro s s' os h
    simp only [run, Option.some.injEq, Prod.mk.injEq] at h
    obtain ⟨rfl, rfl⟩ := h
    exact ⟨rfl, rfl⟩
  | cons e es ih =>
    intro s s' os h
    obtain ⟨s1, o, os1, h1, h2, rfl⟩ := run_cons h
    obtain ⟨a, b⟩ := step_spec s s1 e o h1
    obtain ⟨c, d⟩ := ih s1 s' os1 h2
    rw [b] at c d
    exact ⟨by simp only [spec, a, Option.bind_some]; exact c, d⟩

theorem spec_bounds (max : Nat) (es : List Ev) : ∀ (n n' : Nat) (os : List (Option Bool)), spec max n es os = some n' →
    (n ≤ max → n' ≤ max) ∧ n' + os.count (some true) ≤ n + es.countP isRelease +
      (es.zip os).countP (fun p => isRelease p.1 && (p.2 == some true)) := by
  induction es with
  | nil =>
    intro n n' os h
    cases os with
    | nil => simp only [spec, Option.some.injEq] at h; subst h; simp
    | cons o os => simp [spec] at h
  | cons e es ih =>
    intro n n' os h
    cases os with
    | nil => simp [spec] at h
    | cons o os =>
      simp only [spec, Option.bind_eq_some_iff] at h
      obtain ⟨m, hm, h⟩ := h
      obtain ⟨a, b⟩ := ih m n' os h
      have key : (n ≤ max → m ≤ max) ∧ m + (if o = some true then 1 else 0) ≤
          n + (if isRelease e then 1 else 0) + (if isRelease e && (o == some true) then 1 else 0) := by
        cases e with
        | release k =>
          simp only [specStep, Option.some.injEq] at hm; subst hm
          simp only [isRelease, if_true, Bool.true_and]
          constructor
          · intro; split <;> omega
          · by_cases c : o = some true
            · simp [c]; split <;> omega
            · simp [c]; split <;> omega
        | acquire t =>
          cases o with
          | none => simp [specStep] at hm; subst hm; simp [isRelease]
          | some v =>
            cases v with
            | false => simp [specStep] at hm; subst hm; simp [isRelease]
            | true => simp [specStep] at hm; obtain ⟨h0, rfl⟩ := hm; simp [isRelease]; omega
        | resume t =>
          cases o with
          | none => simp [specStep] at hm; subst hm; simp [isRelease]
          | some v =>
            cases v with
            | false => simp [specStep] at hm; subst hm; simp [isRelease]
            | true => simp [specStep] at hm; obtain ⟨h0, rfl⟩ := hm; simp [isRelease]; omega
        | tick =>
          cases o with
          | none => simp [specStep] at hm; subst hm; simp [isRelease]
          | some v =>
            cases v with
            | false => simp [specStep] at hm; subst hm; simp [isRelease]
            | true => simp [specStep] at hm; obtain ⟨h0, rfl⟩ := hm; simp [isRelease]; omega
      refine ⟨fun g => a (key.1 g), ?_⟩
      have k2 := key.2
      simp only [List.count_cons, List.countP_cons, List.zip_cons_cons, beq_iff_eq]
      generalize (if o = some true then 1 else 0 : Nat) = u at *
      generalize (if isRelease e = true then 1 else 0 : Nat) = v at *
      generalize (if (isRelease e && (o == some true)) = true then 1 else 0 : Nat) = z at *
      omega

/-- `release()` returns nothing. -/
theorem release_out (es : List Ev) : ∀ (s s' : St) (os : List (Option Bool)), run s es = some (s', os) →
    (es.zip os).countP (fun p => isRelease p.1 && (p.2 == some true)) = 0 := by
  induction es with
  | nil => intro s s' os h; simp
  | cons e es ih =>
    intro s s' os h
    obtain ⟨s1, o, os1, h1, h2, rfl⟩ := run_cons h
    have := ih s1 s' os1 h2
    simp only [List.zip_cons_cons, List.countP_cons, this]
    cases e with
    | release k =>
      have : o = none := by
        simp only [step] at h1
        split at h1
        · cases g : notifyOne s.waiters k with
          | none => rw [g] at h1; simp at h1
          | some ws => rw [g] at h1; simp at h1; exact h1.2.symm
        · simp at h1; exact h1.2.symm
      simp [this]
    | _ => simp [isRelease]

/-- C331: in all executions with any number of threads, the semaphore is the counter of the specification
(a release at the maximum is lost, an acquire succeeds only with a counter above zero), the counter never
exceeds the maximum, and there are never more successful acquires than the initial value and the number of
releases: at most `initial` threads hold the semaphore.  With a counter above zero `acquire()` succeeds at
once, and so does a thread that resumes before its deadline. -/
theorem C331_counter (max initial : Nat) (es : List Ev) (s : St) (os : List (Option Bool))
    (h : run (init max initial) es = some (s, os)) :
    spec max initial es os = some s.count ∧ (initial ≤ max → s.count ≤ max) ∧
    s.count + os.count (some true) ≤ initial + es.countP isRelease ∧
    (0 < s.count → ∀ t, ∃ s', step s (.acquire t) = some (s', some true)) ∧
    (0 < s.count → ∀ i w, s.waiters[i]? = some w → s.now < w.deadline →
      ∃ s', step s (.resume i) = some (s', some true)) := by
  obtain ⟨a, b⟩ := run_spec es _ _ _ h
  have a' : spec max initial es os = some s.count := a
  obtain ⟨c, d⟩ := spec_bounds max es _ _ _ a'
  have r := release_out es _ _ _ h
  refine ⟨a', c, by rw [r] at d; omega, fun p t => ?_, fun p i w hw hd => ?_⟩
  · exact ⟨_, by simp only [step, tryTake]; rw [if_neg (by omega)]⟩
  · exact ⟨_, by simp only [step, hw, tryTake]; rw [if_neg (by omega), if_neg (by omega)]⟩

/-- Case: a binary semaphore, one thread gets it, a second one waits until it is released. -/
example : run (init 1 1) [.acquire 100, .acquire 100, .tick, .release 0, .resume 0] =
    some (⟨0, 1, 1, []⟩, [some true, none, none, none, some true]) := by decide +kernel

/-- No thread that waits has reached its deadline when it resumes. -/
def noTimeouts (s : St) : List Ev → Prop
  | [] => True
  | e :: es => (∀ i w, e = .resume i → s.waiters[i]? = some w → s.now < w.deadline) ∧
      ∀ s' o, step s e = some (s', o) → noTimeouts s' es

/-- Some waiting thread sleeps only if the notified ones will use up the counter. -/
def Awake (s : St) : Prop := s.waiters.any (!·.notified) = true → s.count ≤ s.waiters.countP (·.notified)

theorem countP_set (ws : List Waiter) : ∀ (k : Nat) (w : Waiter), ws[k]? = some w → w.notified = false →
    (ws.set k { w with notified := true }).countP (·.notified) = ws.countP (·.notified) + 1 := by
  induction ws with
  | nil => intro k w h; simp at h
  | cons x xs ih =>
    intro k w h hn
    cases k with
    | zero => simp at h; subst h; simp [List.countP_cons, hn]
    | succ k =>
      simp only [List.getElem?_cons_succ] at h
      simp only [List.set_cons_succ, List.countP_cons, ih k w h hn]; omega

theorem countP_erase (ws : List Waiter) : ∀ (k : Nat) (w : Waiter), ws[k]? = some w →
    ws.countP (·.notified) ≤ (ws.eraseIdx k).countP (·.notified) + 1 := by
  induction ws with
  | nil => intro k w h; simp at h
  | cons x xs ih =>
    intro k w h
    cases k with
    | zero => simp only [List.eraseIdx_cons_zero, List.countP_cons]; split <;> omega
    | succ k =>
      simp only [List.getElem?_cons_succ] at h
      have := ih k w h
      simp only [List.eraseIdx_cons_succ, List.countP_cons]; omega

theorem awake_step (s s' : St) (e : Ev) (o : Option Bool) (ha : Awake s)
    (hn : ∀ i w, e = .resume i → s.waiters[i]? = some w → s.now < w.deadline) (h : step s e = some (s', o)) :
    Awake s' := by
  cases e with
  | acquire t =>
    simp only [step, tryTake, Option.some.injEq] at h
    by_cases c : s.count = 0
    · rw [if_pos c] at h; simp only [Prod.mk.injEq] at h; obtain ⟨rfl, -⟩ := h
      intro _; simp only [c]; omega
    · rw [if_neg c] at h; simp only [Prod.mk.injEq] at h; obtain ⟨rfl, -⟩ := h
      intro g; have := ha g; simp only; omega
  | release k =>
    simp only [step] at h
    by_cases c : s.count < s.max
    · rw [if_pos c] at h
      by_cases a : s.waiters.any (!·.notified) = true
      · have ha' := ha a
        unfold notifyOne at h; rw [if_pos a] at h
        cases g : s.waiters[k]? with
        | none => rw [g] at h; simp at h
        | some w =>
          rw [g] at h; simp only at h
          by_cases n : w.notified = true
          · rw [if_pos n] at h; simp at h
          · rw [if_neg n] at h
            simp only [Option.map_some, Option.some.injEq, Prod.mk.injEq] at h; obtain ⟨rfl, -⟩ := h
            intro _
            simp only
            rw [countP_set s.waiters k w g (by simpa using n)]; omega
      · unfold notifyOne at h; rw [if_neg a] at h
        simp only [Option.map_some, Option.some.injEq, Prod.mk.injEq] at h; obtain ⟨rfl, -⟩ := h
        intro g; exact absurd g a
    · rw [if_neg c] at h; simp only [Option.some.injEq, Prod.mk.injEq] at h; obtain ⟨rfl, -⟩ := h
      exact ha
  | resume i =>
    simp only [step] at h
    cases g : s.waiters[i]? with
    | none => rw [g] at h; simp at h
    | some w =>
      have d := hn i w rfl g
      rw [g] at h; simp only at h
      rw [if_neg (by omega)] at h
      simp only [tryTake, Option.some.injEq] at h
      by_cases c : s.count = 0
      · rw [if_pos c] at h; simp only [Prod.mk.injEq] at h; obtain ⟨rfl, -⟩ := h
        intro _; simp only [c]; omega
      · rw [if_neg c] at h; simp only [Prod.mk.injEq] at h; obtain ⟨rfl, -⟩ := h
        intro u; simp only at u ⊢
        have v : s.waiters.any (!·.notified) = true := by
          rw [List.any_eq_true] at u ⊢
          obtain ⟨x, hx, hy⟩ := u
          exact ⟨x, List.mem_of_mem_eraseIdx hx, hy⟩
        have := ha v
        have := countP_erase s.waiters i w g
        omega
  | tick =>
    simp only [step, Option.some.injEq, Prod.mk.injEq] at h; obtain ⟨rfl, -⟩ := h
    exact ha

/-- C332: in all executions in which no wait ends by its timeout no wake-up is lost: a thread sleeps without
a notification only if the counter is used up by the threads that are notified; so a counter above zero
with a thread waiting means that a thread will take it. -/
theorem C332_awake_partial (max initial : Nat) (es : List Ev) (s : St) (os : List (Option Bool))
    (h : run (init max initial) es = some (s, os)) (hn : noTimeouts (init max initial) es) :
    (s.waiters.any (!·.notified) = true → s.count ≤ s.waiters.countP (·.notified)) ∧
    (0 < s.count → s.waiters ≠ [] → ∃ w ∈ s.waiters, w.notified = true) := by
  have key : ∀ (es : List Ev) (s0 s : St) (os : List (Option Bool)), Awake s0 → run s0 es = some (s, os) →
      noTimeouts s0 es → Awake s := by
    intro es
    induction es with
    | nil =>
      intro s0 s os a h _
      simp only [run, Option.some.injEq, Prod.mk.injEq] at h
      obtain ⟨rfl, -⟩ := h; exact a
    | cons e es ih =>
      intro s0 s os a h n
      obtain ⟨s1, o, os1, h1, h2, rfl⟩ := run_cons h
      exact ih s1 s os1 (awake_step s0 s1 e o a n.1 h1) h2 (n.2 s1 o h1)
  have a := key es _ s os (by intro g; simp [init] at g) h hn
  refine ⟨a, fun hc hw => ?_⟩
  by_cases u : s.waiters.any (!·.notified) = true
  · have p := a u
    have : 0 < s.waiters.countP (·.notified) := by omega
    rw [List.countP_pos_iff] at this
    exact this
  · cases hl : s.waiters with
    | nil => exact absurd hl hw
    | cons w ws =>
      rw [hl] at u
      simp only [List.any_cons, Bool.or_eq_true, not_or] at u
      exact ⟨w, by simp, by simpa using u.1⟩

/-- Case: the hypotheses hold with a thread waiting and one release. -/
example : ∃ s os, run (init 2 0) [.acquire 100, .acquire 100, .tick, .release 1] = some (s, os) ∧ s.count = 1 ∧
    s.waiters.map (·.notified) = [false, true] := ⟨_, _, rfl, rfl, rfl⟩

/-- C332 (refuted with timeouts): one thread waits for at most 10 ms, another one without a limit.  The
release notifies the first one, which gets the mutex when its time is up: it returns `false`, and the
second thread sleeps on though the semaphore is free. -/
theorem C332_lost_counterexample :
    run (init 1 0) ([.acquire 10, .acquire defaultTimeout] ++ List.replicate 9 .tick ++ [.release 0, .tick, .resume 0]) =
      some (⟨1, 1, 10, [⟨0, defaultTimeout, defaultTimeout, false⟩]⟩,
        [none, none] ++ List.replicate 9 none ++ [none, none, some false]) := by decide +kernel

/-- Deadlines are never before the time of the call and the timeout, nor after the present time and the
timeout. -/
def Late (s : St) : Prop := ∀ w ∈ s.waiters, w.since ≤ s.now ∧ w.since + w.timeout ≤ w.deadline ∧ w.deadline ≤ s.now + w.timeout

theorem late_tryTake (s : St) (a b : Nat) (h : Late s) (ha : a ≤ s.now) : Late (tryTake s a b).1 := by
  unfold tryTake
  by_cases c : s.count = 0
  · rw [if_pos c]
    intro w hw
    simp only [List.mem_append, List.mem_singleton] at hw
    rcases hw with hw | rfl
    · exact h w hw
    · exact ⟨ha, by simp only; omega, by simp only; omega⟩
  · rw [if_neg c]; exact h

theorem late_step (s s' : St) (e : Ev) (o : Option Bool) (hl : Late s) (h : step s e = some (s', o)) : Late s' := by
  cases e with
  | acquire t =>
    simp only [step, Option.some.injEq] at h
    have := late_tryTake s s.now t hl (Nat.le_refl _); rw [h] at this; exact this
  | release k =>
    simp only [step] at h
    by_cases c : s.count < s.max
    · rw [if_pos c] at h
      unfold notifyOne at h
      split at h
      · cases g : s.waiters[k]? with
        | none => rw [g] at h; simp at h
        | some w =>
          rw [g] at h; simp only at h
          split at h
          · simp at h
          · simp only [Option.map_some, Option.some.injEq, Prod.mk.injEq] at h; obtain ⟨rfl, -⟩ := h
            intro x hx
            rcases List.mem_or_eq_of_mem_set hx with q | q
            · exact hl x q
            · subst q; exact hl w (List.mem_of_getElem? g)
      · simp only [Option.map_some, Option.some.injEq, Prod.mk.injEq] at h; obtain ⟨rfl, -⟩ := h
        exact hl
    · rw [if_neg c] at h; simp only [Option.some.injEq, Prod.mk.injEq] at h; obtain ⟨rfl, -⟩ := h
      exact hl
  | resume i =>
    simp only [step] at h
    cases g : s.waiters[i]? with
    | none => rw [g] at h; simp at h
    | some w =>
      rw [g] at h; simp only at h
      have l : Late { s with waiters := s.waiters.eraseIdx i } := fun x hx => hl x (List.mem_of_mem_eraseIdx hx)
      split at h
      · simp only [Option.some.injEq, Prod.mk.injEq] at h; obtain ⟨rfl, -⟩ := h
        exact l
      · simp only [Option.some.injEq] at h
        have := late_tryTake _ w.since w.timeout l (hl w (List.mem_of_getElem? g)).1; rw [h] at this; exact this
  | tick =>
    simp only [step, Option.some.injEq, Prod.mk.injEq] at h; obtain ⟨rfl, -⟩ := h
    intro w hw; have := hl w hw; simp only; omega

/-- C333: in all executions `acquire()` returns `false` only after its full timeout since the call; and a
thread that is not woken for the length of its timeout returns when it resumes. -/
theorem C333_timeout_partial (max initial : Nat) (es : List Ev) (s : St) (os : List (Option Bool))
    (h : run (init max initial) es = some (s, os)) (i : Nat) (w : Waiter) (hw : s.waiters[i]? = some w) :
    ((∃ s', step s (.resume i) = some (s', some false)) → w.since + w.timeout ≤ s.now) ∧
    (∃ s' o, run s (List.replicate w.timeout .tick ++ [.resume i]) =
      some (s', List.replicate w.timeout none ++ [some o])) := by
  have key : ∀ (es : List Ev) (s0 s : St) (os : List (Option Bool)), Late s0 → run s0 es = some (s, os) → Late s := by
    intro es
    induction es with
    | nil =>
      intro s0 s os a h
      simp only [run, Option.some.injEq, Prod.mk.injEq] at h
      obtain ⟨rfl, -⟩ := h; exact a
    | cons e es ih =>
      intro s0 s os a h
      obtain ⟨s1, o, os1, h1, h2, rfl⟩ := run_cons h
      exact ih s1 s os1 (late_step s0 s1 e o a h1) h2
  have l := key es _ s os (by intro g hg; simp [init] at hg) h w (List.mem_of_getElem? hw)
  refine ⟨?_, ?_⟩
  · rintro ⟨s', g⟩
    simp only [step, hw] at g
    split at g
    · rename_i c; omega
    · simp only [tryTake, Option.some.injEq] at g
      split at g <;> simp at g
  · have ticks : ∀ (n : Nat) (s : St), s.waiters[i]? = some w → w.deadline ≤ s.now + n →
        ∃ s' o, run s (List.replicate n .tick ++ [.resume i]) = some (s', List.replicate n none ++ [some o]) := by
      intro n
      induction n with
      | zero =>
        intro s hs hd
        have hd' : w.deadline ≤ s.now := by omega
        exact ⟨{ s with waiters := s.waiters.eraseIdx i }, false, by simp [run, step, hs, hd']⟩
      | succ n ih =>
        intro s hs hd
        obtain ⟨s', o, hr⟩ := ih { s with now := s.now + 1 } hs (by simp only; omega)
        refine ⟨s', o, ?_⟩
        simp only [List.replicate_succ, List.cons_append, run, step, bind, Option.bind_some, hr, pure]
    exact ticks w.timeout s hw (by omega)

example : ∃ s os, run (init 1 0) [.acquire 1, .tick, .resume 0] = some (s, os) ∧ os = [none, none, some false] :=
  ⟨_, _, rfl, rfl⟩

/-- Nine milliseconds, a release, another thread takes the semaphore first. -/
def round : List Ev := List.replicate 9 .tick ++ [.release 0, .acquire 0, .resume 0]

theorem round_run (t : Nat) :
    run ⟨0, 1, t, [⟨0, 10, t + 10, false⟩]⟩ round =
      some (⟨0, 1, t + 9, [⟨0, 10, t + 9 + 10, false⟩]⟩, List.replicate 9 none ++ [none, some true, none]) := by
  have h : ¬ t + 10 ≤ t + 1 + 1 + 1 + 1 + 1 + 1 + 1 + 1 + 1 := by omega
  simp [round, run, step, tryTake, notifyOne, List.replicate, h, Nat.add_assoc]

theorem run_append (a b : List Ev) : ∀ (s s1 s2 : St) (o1 o2 : List (Option Bool)), run s a = some (s1, o1) →
    run s1 b = some (s2, o2) → run s (a ++ b) = some (s2, o1 ++ o2) := by
  induction a with
  | nil =>
    intro s s1 s2 o1 o2 h g
    simp only [run, Option.some.injEq, Prod.mk.injEq] at h
    obtain ⟨rfl, rfl⟩ := h; exact g
  | cons e es ih =>
    intro s s1 s2 o1 o2 h g
    obtain ⟨s', o, os1, h1, h2, rfl⟩ := run_cons h
    have := ih s' s1 s2 os1 o2 h2 g
    simp only [List.cons_append, run, h1, bind, Option.bind_some, this, pure]

/-- C333 (refuted): the timeout starts again after every wake-up that comes too late for the semaphore: a
thread in `acquire(10)` still waits after any time `n`, without ever having returned.  And without an
argument the timeout is not endless: `false` after 2³² - 1 ms. -/
theorem C333_restart_counterexample :
    (∀ n, ∃ es s os, run (init 1 0) (.acquire 10 :: es) = some (s, os) ∧ n ≤ s.now ∧
      s.waiters = [⟨0, 10, s.now + 10, false⟩]) ∧
    (∃ s, step ⟨0, 1, defaultTimeout, [⟨0, defaultTimeout, defaultTimeout, false⟩]⟩ (.resume 0) = some (s, some false)) := by
  refine ⟨fun n => ?_, _, rfl⟩
  have key : ∀ k, ∃ es os, run ⟨0, 1, 0, [⟨0, 10, 0 + 10, false⟩]⟩ es =
      some (⟨0, 1, 9 * k, [⟨0, 10, 9 * k + 10, false⟩]⟩, os) := by
    intro k
    induction k with
    | zero => exact ⟨[], [], rfl⟩
    | succ k ih =>
      obtain ⟨es, os, h⟩ := ih
      exact ⟨es ++ round, _, run_append es round _ _ _ _ _ h (by rw [show 9 * (k + 1) = 9 * k + 9 by omega]; exact round_run (9 * k))⟩
  obtain ⟨es, os, h⟩ := key n
  refine ⟨es, ⟨0, 1, 9 * n, [⟨0, 10, 9 * n + 10, false⟩]⟩, none :: os, ?_, by show n ≤ 9 * n; omega, rfl⟩
  simp only [run, step, tryTake, init, bind, Option.bind_some, if_true, List.nil_append, h, pure]

end Props.ThreadSemaphore
