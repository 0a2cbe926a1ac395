import Verif.Lemmas.FdcanRx

set_option autoImplicit false

/-! Property C159 and C160: receiving with the STM32 FDCAN driver. -/

namespace Props.FdcanRx

open Modm.FdcanRx Spec.FdcanRx

variable {α : Type}

/-- A schedule whose choices are all allowed. -/
private def check (cfg : Config) (ok : State α → Act α → Bool) (s : State α) : List (Act α) → Option (State α × List (Ev α))
  | [] => some (s, [])
  | a :: as =>
    if ok s a then
      match step cfg s a with
      | none => none
      | some (s', e) => (check cfg ok s' as).map fun r => (r.1, e ++ r.2)
    else none

private theorem check_reach {cfg : Config} {ok : State α → Act α → Bool} {s₀ : State α} (as : List (Act α)) {s s' : State α} {tr e : List (Ev α)}
    (h : Reach cfg (fun s a => ok s a = true) s₀ s tr) (hc : check cfg ok s as = some (s', e)) :
    Reach cfg (fun s a => ok s a = true) s₀ s' (tr ++ e) := by
  induction as generalizing s tr e with
  | nil => cases hc; simpa using h
  | cons a as ih =>
    simp only [check] at hc
    split_ifs at hc with hok
    split at hc
    · cases hc
    · next s1 e1 hs =>
      match hr : check cfg ok s1 as with
      | none => simp [hr] at hc
      | some (s2, e2) =>
        simp only [hr, Option.map_some] at hc
        cases hc
        simpa using ih (.step a h hok hs) hr

private theorem reach_mono {cfg : Config} {p q : State α → Act α → Prop} (hpq : ∀ s a, p s a → q s a) {s₀ s : State α} {tr : List (Ev α)}
    (h : Reach cfg p s₀ s tr) : Reach cfg q s₀ s tr := by
  induction h with
  | start => exact .start
  | step a _ hok hs ih => exact .step a ih (hpq _ _ hok) hs

/-- One call of `getMessage`. -/
private def fetch : List (Act Nat) := .call .get :: List.replicate 4 .main

/-- One run of the handler. -/
private def handler (n : Nat) : List (Act Nat) := .interrupt :: List.replicate n .isr

/-- **C159** No schedule goes wrong, the queue never exceeds its size, and the handler never drops a message because the queue is full, whatever the FIFOs do. -/
theorem C159_queue {cfg : Config} (h0 : 0 < cfg.rxSize) {ram : Fin 3 → α} {s : State α} {tr : List (Ev α)} (h : Reach cfg (fun _ _ => True) (init ram) s tr) :
    (∀ a, ∃ s' e, step cfg s a = some (s', e)) ∧ s.queue.length ≤ cfg.rxSize ∧ ∀ x, .full x ∉ tr := by
  refine ⟨step_defined (reach_invQ h0 h), (reach_invQ h0 h).len, fun x hx => ?_⟩
  induction h with
  | start => cases hx
  | step a hr _ hs ih =>
    rcases List.mem_append.1 hx with hx | hx
    · exact ih hx
    · exact (invQ_step h0 (reach_invQ h0 hr) hs).2 x hx

/-- **C159** (partial: no element is overwritten.  Missing: `overwriteOnOverrun` with a full FIFO.)  Between calls the messages put into a FIFO are, in order and each exactly once, with its own header and data,
the messages delivered from it, followed by those in the queue, followed by those in the FIFO. -/
theorem C159_order_partial {cfg : Config} (h0 : 0 < cfg.rxSize) {ram : Fin 3 → α} {s : State α} {tr : List (Ev α)} (h : Reach cfg (NoOverwrite cfg) (init ram) s tr)
    (hm : s.main = .idle) (hi : s.isr = .none) (i : Bool) :
    (arrived i tr).map frame = got i tr ++ queued i s.queue ++ (contents (s.fifo i)).map frame := by
  have := (reach_flow h0 (fun _ _ h => h) h).2 i
  simpa [flow, hm, hi, inMain, inIsr] using this

/-- **C159** (partial: as before)  At any time the messages delivered from a FIFO are the first of those put into it. -/
theorem C159_prefix_partial {cfg : Config} (h0 : 0 < cfg.rxSize) {ram : Fin 3 → α} {s : State α} {tr : List (Ev α)} (h : Reach cfg (NoOverwrite cfg) (init ram) s tr) (i : Bool) :
    got i tr <+: (arrived i tr).map frame :=
  ⟨_, ((reach_flow h0 (fun _ _ h => h) h).2 i).symm⟩

private def locked : Config := ⟨2, false, fun _ _ => 0⟩

-- four messages for a FIFO, one while the handler reads: three have been accepted and are there in order
example : (run locked (init fun _ => 0)
      ([.arrive false 1, .arrive true 2] ++ handler 3 ++ [.arrive false 3, .arrive false 4, .arrive false 5] ++ List.replicate 20 .isr ++ fetch)).map
    (fun r => (got false r.2, got true r.2, r.1.queue, contents (r.1.fifo false), contents (r.1.fifo true), r.1.main, r.1.isr)) =
    some ([(1, 1)], [], [⟨false, 3, 3⟩], [4], [2], .idle, .none) :=
  rfl

private def rests (s : State Nat) : Bool := decide (s.main = .idle) && decide (s.isr = .none)

-- the hypotheses can be met with something delivered, queued and left
example : ∃ s tr, Reach locked (NoOverwrite locked) (init fun _ => 0) s tr ∧ s.main = .idle ∧ s.isr = .none ∧ got false tr = [(1, 1)] ∧ s.queue = [⟨false, 3, 3⟩] := by
  have hc : (check locked (fun _ _ => true) (init fun _ => 0) ([.arrive false 1, .arrive false 3] ++ handler 20 ++ fetch)).isSome &&
      (check locked (fun _ _ => true) (init fun _ => 0) ([.arrive false 1, .arrive false 3] ++ handler 20 ++ fetch)).all
        (fun r => decide (rests r.1 = true ∧ got false r.2 = [(1, 1)] ∧ r.1.queue = [⟨false, 3, 3⟩])) = true := by
    decide +kernel
  match hr : check locked (fun _ _ => true) (init fun _ => 0) ([.arrive false 1, .arrive false 3] ++ handler 20 ++ fetch) with
  | none => rw [hr] at hc; cases hc
  | some (s, tr) =>
    rw [hr] at hc
    simp only [Option.isSome_some, Bool.true_and, Option.all_some, decide_eq_true_eq, rests, Bool.and_eq_true] at hc
    refine ⟨s, tr, ?_, hc.1.1, hc.1.2, hc.2⟩
    have := check_reach (cfg := locked) (ok := fun _ _ => true) _ .start hr
    rw [List.nil_append] at this
    refine reach_mono ?_ this
    intro s a _
    cases a <;> first | trivial | exact .inl rfl

/-- **C159** is false with `overwriteOnOverrun`, the default: if a message comes for a full FIFO while the handler reads the oldest element, a message is delivered which nobody has sent, with the header of the
first and the data of the fourth; whatever the fill level is afterwards. -/
theorem C159_overwrite_counterexample (fill : Nat) :
    ∃ as : List (Act Nat), (run ⟨1, true, fun _ _ => fill⟩ (init fun _ => 0) as).map (fun r => (arrived false r.2, got false r.2, r.1.main, r.1.isr)) =
      some ([1, 2, 3, 4], [(1, 4)], .idle, .none) :=
  ⟨[.arrive false 1, .arrive false 2, .arrive false 3, .interrupt, .isr, .isr, .isr, .isr, .arrive false 4, .isr, .isr, .isr, .isr, .isr, .isr, .isr] ++ fetch, by
    cases fill <;> rfl⟩

/-- **C160** If `isMessageAvailable` has returned `true` and `getMessage` has not returned since, then `getMessage` does not return `false`, whatever the FIFOs and the handler do meanwhile. -/
theorem C160_available {cfg : Config} {ram : Fin 3 → α} {s s' : State α} {tr e : List (Ev α)} (h : Reach cfg (fun _ _ => True) (init ram) s tr)
    (ha : announced false tr = true) {a : Act α} (hs : step cfg s a = some (s', e)) : .nothing ∉ e := by
  have hr := reach_announced h ha
  obtain ⟨fifo, rf, ile, q, main, isr⟩ := s
  cases a with
  | call c => simp only [step] at hs; split at hs <;> cases hs <;> simp
  | interrupt => simp only [step] at hs; split at hs <;> cases hs <;> simp
  | restore => simp only [step] at hs; split at hs <;> cases hs <;> simp
  | arrive i m => cases hs; simp only [accept]; split_ifs <;> simp
  | isr =>
    simp only [step] at hs
    cases isr with
    | loop i n => simp only [isrStep] at hs; split_ifs at hs <;> cases hs <;> simp
    | push n x => simp only [isrStep] at hs; split_ifs at hs <;> cases hs <;> simp
    | _ => cases hs; simp
  | main =>
    simp only [step] at hs
    split at hs
    · cases main with
      | check =>
        have hq : q ≠ [] := hr
        simp only [mainStep] at hs
        split_ifs at hs with h <;> cases hs
        · simp at h; exact absurd h hq
        · simp
      | get =>
        cases q with
        | nil => cases hs
        | cons x q => cases hs; simp
      | _ => cases hs; simp
    · cases hs; simp

-- the interrupt may come between the two calls
example : (run ⟨2, true, fun _ _ => 0⟩ (init fun _ => 0) ([.arrive true 7] ++ handler 20 ++ [.call .available, .main, .arrive true 8] ++ handler 20 ++ fetch)).map (·.2) =
    some [.arrived true 7, .called .available, .available true, .arrived true 8, .called .get, .got ⟨true, 7, 7⟩] := by
  decide +kernel

/-- **C160** While the queue is empty between calls the interrupt is enabled: receiving never stops for good. -/
theorem C160_enabled {cfg : Config} (h0 : 0 < cfg.rxSize) {ram : Fin 3 → α} {s : State α} {tr : List (Ev α)} (h : Reach cfg (fun _ _ => True) (init ram) s tr)
    (hm : s.main = .idle) (hq : s.queue = []) : s.ile = true := by
  by_contra hi
  rcases (reach_invQ h0 h).enabled (by simpa using hi) with h1 | ⟨x, h1⟩
  · exact h1 hq
  · rw [hm] at h1; cases h1

/-- **C160** (partial: no element is overwritten, and no message comes for a FIFO while the handler, having found it empty, has not left yet.  Missing: such messages.)  When the queue is empty,
nobody runs and no interrupt is requested, every message put into a FIFO has been delivered. -/
theorem C160_complete_partial {cfg : Config} (h0 : 0 < cfg.rxSize) {ram : Fin 3 → α} {s : State α} {tr : List (Ev α)} (h : Reach cfg (Seen cfg) (init ram) s tr)
    (hm : s.main = .idle) (hi : s.isr = .none) (hq : s.queue = []) (hr : requested s = false) (i : Bool) : (arrived i tr).map frame = got i tr := by
  have hok : ∀ (s : State α) a, Seen cfg s a → NoOverwrite cfg s a := by
    intro s a h
    cases a <;> first | trivial | exact h.1
  have hS := reach_invS h0 h
  have hile := C160_enabled h0 (reach_mono (fun _ _ _ => trivial) h) hm hq
  have hfill : (s.fifo i).fill = 0 := by
    by_contra hf
    have := hS.rf i hf
    simp [requested, hile] at hr
    cases i
    · rw [hr.1] at this; cases this
    · rw [hr.2] at this; cases this
  have := C159_order_partial h0 (reach_mono hok h) hm hi i
  rw [this, hq, contents_nil.2 hfill]
  simp [queued]

-- five messages with a queue of two, all delivered: the handler is requested again after each `getMessage`
example : (run locked (init fun _ => 0)
      ([.arrive false 1, .arrive false 2, .arrive true 3] ++ handler 30 ++ fetch ++ [.arrive false 4] ++ handler 30 ++ fetch ++ handler 30 ++ fetch ++ handler 30 ++ fetch ++ handler 30)).map
    (fun r => (got false r.2, got true r.2, r.1.queue, requested r.1)) =
    some ([(1, 1), (2, 2), (4, 4)], [(3, 3)], [], false) := by
  decide +kernel

/-- **C160** is false otherwise: a message which comes after the handler's loops and before it clears the flags stays in the FIFO.  The queue is empty, nobody runs, no interrupt is requested, and `getMessage` returns
`false`, until another message comes. -/
theorem C160_complete_counterexample (refill : Fin 3 → Fin 3 → Nat) (overwrite : Bool) :
    ∃ as : List (Act Nat), (run ⟨32, overwrite, refill⟩ (init fun _ => 0) as).map
      (fun r => (arrived false r.2, r.2.getLast?, r.1.queue, contents (r.1.fifo false), r.1.main, r.1.isr, requested r.1)) =
      some ([1, 2], some .nothing, [], [2], .idle, .none, false) :=
  ⟨[.arrive false 1, .interrupt] ++ List.replicate 8 .isr ++ [.arrive false 2] ++ List.replicate 3 .isr ++ fetch ++ fetch,
    rfl⟩

end Props.FdcanRx
