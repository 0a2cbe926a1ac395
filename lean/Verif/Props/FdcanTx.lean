import Verif.Lemmas.FdcanTx

set_option autoImplicit false

/-! Property C157 and C158: sending with the STM32 FDCAN driver. -/

namespace Props.FdcanTx

open Modm.FdcanTx Spec.FdcanTx

variable {α : Type}

/-- A schedule whose choices are all allowed. -/
private def check (txSize : Nat) (ok : State α → Act α → Bool) (s : State α) : List (Act α) → Option (State α × List (Ev α))
  | [] => some (s, [])
  | a :: as =>
    if ok s a then
      match step txSize s a with
      | none => none
      | some (s', e) => (check txSize ok s' as).map fun r => (r.1, e ++ r.2)
    else none

private theorem check_reach {txSize : Nat} {ok : State α → Act α → Bool} {s₀ : State α} (as : List (Act α)) {s s' : State α} {tr e : List (Ev α)}
    (h : Reach txSize (fun s a => ok s a = true) s₀ s tr) (hc : check txSize ok s as = some (s', e)) :
    Reach txSize (fun s a => ok s a = true) s₀ s' (tr ++ e) := by
  induction as generalizing s tr e with
  | nil => cases hc; simpa using h
  | cons a as ih =>
    simp only [check] at hc
    split_ifs at hc with hok
    split at hc
    · cases hc
    · next s1 e1 hs =>
      match hr : check txSize ok s1 as with
      | none => simp [hr] at hc
      | some (s2, e2) =>
        simp only [hr, Option.map_some] at hc
        cases hc
        simpa using ih (.step a h hok hs) hr

private theorem reach_mono {txSize : Nat} {p q : State α → Act α → Prop} (hpq : ∀ s a, p s a → q s a) {s₀ s : State α} {tr : List (Ev α)}
    (h : Reach txSize p s₀ s tr) : Reach txSize q s₀ s tr := by
  induction h with
  | start => exact .start
  | step a _ hok hs ih => exact .step a ih (hpq _ _ hok) hs

/-- One call of `sendMessage` with the put index `k`. -/
private def send (m : Nat) (k : Fin 3) : List (Act Nat) := .call (.send m) :: List.replicate 7 (.main k)

/-- One run of the handler. -/
private def handler (k : Fin 3) : List (Act Nat) := .interrupt :: List.replicate 8 (.isr k)

/-- **C157** No schedule of program, handler and hardware goes wrong, the queue never exceeds its size, and between calls every message taken has been sent
exactly once, with its own header and data, or waits in the hardware or in the queue. -/
theorem C157_exact {txSize : Nat} {ram : Fin 3 → α} {s : State α} {tr : List (Ev α)} (h : Reach txSize (fun _ _ => True) (init ram) s tr) :
    (∀ a, ∃ s' e, step txSize s a = some (s', e)) ∧ s.queue.length ≤ txSize ∧
    (s.main = .idle → s.isr = .none → ((taken tr).map frame).Perm (s.wire ++ waiting s ++ s.queue.map frame)) := by
  refine ⟨step_defined (reach_inv h), (reach_inv h).len, fun hm hi => ?_⟩
  have := account h
  simpa [hm, hi, inflight, queued] using this

/-- **C157** Nothing but messages passed to `sendMessage` is ever sent: also during a call every frame sent is the frame of a message which has been taken or for which
`sendMessage` is about to return `true`. -/
theorem C157_nothing_else {txSize : Nat} {ram : Fin 3 → α} {s : State α} {tr : List (Ev α)} (h : Reach txSize (fun _ _ => True) (init ram) s tr)
    {f : α × α} (hf : f ∈ s.wire) : ∃ m, f = frame m ∧ (m ∈ taken tr ∨ s.main = .unlock m true) := by
  have := (account h).mem_iff (a := f)
  simp only [List.mem_map, List.mem_append] at this
  obtain ⟨m, hm, rfl⟩ := this.2 (.inl (.inl hf))
  refine ⟨m, rfl, hm.imp id fun hm => ?_⟩
  match hs : s.main with
  | .unlock m' true => simp [hs, inflight] at hm; rw [hm]
  | .unlock m' false => simp [hs, inflight] at hm
  | .idle | .lock _ | .full _ | .room _ | .push _ | .again _ | .header _ | .data _ _ | .request _ _ | .ready => simp [hs, inflight] at hm

/-- **C157** is false if the interrupt is shared with another controller: the lock does not keep the handler out.  Five messages have been taken, the buffers are free and the queue is
empty, but only four frames were sent, the last one with the header of the fourth and the data of the fifth message. -/
theorem C157_shared_counterexample :
    ∃ as : List (Act Nat), (runShared 4 (init fun _ => 0) as).map (fun r => (taken r.2, r.1.wire, r.1.queue, waiting r.1)) =
      some ([10, 11, 12, 13, 14], [(10, 10), (11, 11), (12, 12), (13, 14)], [], []) :=
  ⟨send 10 0 ++ send 11 1 ++ send 12 2 ++ send 13 0 ++ [.complete 0, .complete 1, .complete 2] ++
    [.call (.send 14), .main 0, .main 0, .main 0, .main 0] ++ handler 0 ++ [.main 0, .main 0, .main 0, .complete 0], by decide⟩

/-- How much the handler and the hardware still have to do. -/
private def pos : Isr → Bool → Nat
  | .none, tc => if tc then 10 else 0
  | .flag, tc => if tc then 9 else 1
  | .clear, _ => 8
  | .check, tc => 6 + if tc then 10 else 0
  | .full, tc => 5 + if tc then 10 else 0
  | .header, tc => 4 + if tc then 10 else 0
  | .data _, tc => 3 + if tc then 10 else 0
  | .request _, tc => 2 + if tc then 10 else 0
  | .pop, tc => 1 + if tc then 10 else 0

private def todo (s : State α) : Nat :=
  pos s.isr s.tc + 20 * ((if s.pending 0 then 1 else 0) + (if s.pending 1 then 1 else 0) + (if s.pending 2 then 1 else 0)) + 30 * (queued s).length

private theorem todo_step {txSize : Nat} {s s' : State α} {e : List (Ev α)} {a : Act α} (h : Inv txSize s) (ha : Auto txSize s a)
    (hs : step txSize s a = some (s', e)) : todo s' < todo s ∧ s'.main = s.main ∧ e = [] := by
  obtain ⟨hdr, dat, p, tc, ile, wire, q, main, isr⟩ := s
  obtain ⟨h1, h2, h3, h4, h5⟩ := h
  cases a with
  | call c => cases ha
  | main k => cases ha
  | interrupt =>
    obtain ⟨h6, h7, h8, h9⟩ := ha
    dsimp only at h7 h8 h9
    subst h7 h8 h9
    simp only [step] at hs
    rw [if_pos ⟨h6, trivial⟩] at hs
    cases hs
    simp [todo, pos, queued]
  | complete k =>
    simp only [Auto] at ha
    simp only [step, ha, if_true] at hs
    cases hs
    refine ⟨?_, rfl, rfl⟩
    cases isr <;> cases tc <;> fin_cases k <;> simp_all [todo, pos, queued, upd] <;> omega
  | isr k =>
    obtain ⟨h6, h7⟩ := ha
    simp only [step] at hs
    cases isr with
    | none => exact absurd rfl h6
    | flag => cases hs; cases tc <;> simp [todo, pos, queued]
    | clear => cases hs; simp [todo, pos, queued]
    | check => cases hs; cases q <;> cases tc <;> simp [todo, pos, queued]
    | full =>
      cases hs
      cases hf : hwFull (⟨hdr, dat, p, tc, ile, wire, q, main, .full⟩ : State α) <;> cases tc <;> simp [todo, pos, queued]
    | header =>
      have hk := h7 rfl
      cases q with
      | nil => simp [isrStep] at hs
      | cons m q =>
        dsimp only at hk
        simp only [isrStep, hk] at hs
        cases hs
        cases tc <;> simp [todo, pos, queued]
    | data j =>
      obtain ⟨m, r, h8, -⟩ := h5
      dsimp only at h8
      subst h8
      cases hs
      cases tc <;> simp [todo, pos, queued]
    | request j =>
      obtain ⟨m, r, h8, h9, -⟩ := h5
      dsimp only at h8 h9
      subst h8
      cases hs
      refine ⟨?_, rfl, rfl⟩
      cases tc <;> fin_cases j <;> simp_all [todo, pos, queued, upd] <;> omega
    | pop => cases hs; cases tc <;> simp [todo, pos, queued]

private theorem runs_facts {txSize : Nat} {n : Nat} {s s' : State α} (h : Inv txSize s) (hr : Runs txSize s n s') :
    n + todo s' ≤ todo s ∧ Inv txSize s' ∧ s'.main = s.main := by
  induction hr with
  | refl s => exact ⟨by omega, h, rfl⟩
  | step a ha hs _ ih =>
    obtain ⟨h1, h2, -⟩ := todo_step h ha hs
    obtain ⟨h3, h4, h5⟩ := ih (inv_step h hs)
    exact ⟨by omega, h4, h5.trans h2⟩

private theorem runs_reach {txSize : Nat} {n : Nat} {s₀ s s' : State α} {tr : List (Ev α)} (hi : Inv txSize s) (hr : Runs txSize s n s')
    (h : Reach txSize (fun _ _ => True) s₀ s tr) : Reach txSize (fun _ _ => True) s₀ s' tr := by
  induction hr with
  | refl s => exact h
  | step a ha hs _ ih =>
    obtain ⟨-, -, he⟩ := todo_step hi ha hs
    subst he
    exact ih (inv_step hi hs) (by simpa using Reach.step a h trivial hs)

/-- **C157** After the last call everything is sent: as long as the program calls nothing, handler and hardware come to an end after a bounded number of steps, whatever the
order, and then every message taken has been sent exactly once. -/
theorem C157_complete {txSize : Nat} {ram : Fin 3 → α} {s : State α} {tr : List (Ev α)} (h : Reach txSize (fun _ _ => True) (init ram) s tr)
    (hm : s.main = .idle) : ∃ bound, ∀ n s', Runs txSize s n s' →
      n ≤ bound ∧ ((∃ a s'' e, Auto txSize s' a ∧ step txSize s' a = some (s'', e)) ∨
        (AtRest txSize s' ∧ s'.queue = [] ∧ ((taken tr).map frame).Perm s'.wire)) := by
  refine ⟨todo s, fun n s' hr => ?_⟩
  obtain ⟨h1, h2, h3⟩ := runs_facts (reach_inv h) hr
  refine ⟨by omega, ?_⟩
  by_cases hstop : ∃ a s'' e, Auto txSize s' a ∧ step txSize s' a = some (s'', e)
  · exact .inl hstop
  · right
    have hno : ∀ a, ¬ Auto txSize s' a := fun a ha => by
      obtain ⟨s'', e, hs⟩ := step_defined h2 a
      exact hstop ⟨a, s'', e, ha, hs⟩
    have hp : ∀ k, s'.pending k = false := fun k => by
      cases hk : s'.pending k
      · rfl
      · exact absurd hk (hno (.complete k))
    have hisr : s'.isr = .none := by
      by_contra hne
      exact hno (.isr 0) ⟨hne, fun _ => hp 0⟩
    have htc : txSize ≠ 0 → s'.tc = false := fun h0 => by
      have hile := (h2.lock h0).2 (by rw [h3, hm]; exact id)
      cases ht : s'.tc
      · rfl
      · exact absurd ⟨h0, hile, hisr, ht⟩ (hno .interrupt)
    have hq : s'.queue = [] := by
      by_cases h0 : txSize = 0
      · have := h2.len
        rw [h0] at this
        exact List.eq_nil_of_length_eq_zero (Nat.le_zero.1 this)
      · by_contra hne
        have := h2.isr
        simp only [IsrOk, hisr, Alive, hp, htc h0] at this
        simpa using this hne
    refine ⟨⟨h3.trans hm, hisr, hp, htc⟩, hq, ?_⟩
    have := (C157_exact (runs_reach (reach_inv h) hr h)).2.2 (h3.trans hm) hisr
    simpa [hq, waiting, hp] using this

example : ∃ s tr, Reach 2 (fun _ _ => True) (init fun _ => 0) s tr ∧ s.main = .idle ∧ taken tr = [10, 11, 12, 13] ∧ s.queue = [13] ∧
    s.wire = [(11, 11)] := by
  refine ⟨_, _, reach_mono (fun _ _ _ => trivial) (check_reach (ok := fun _ _ => true) (send 10 0 ++ send 11 2 ++ send 12 1 ++ send 13 0 ++ [.complete 2]) .start rfl), ?_⟩
  decide

private theorem unlock_false {txSize : Nat} {ok : State α → Act α → Prop} {ram : Fin 3 → α} {s : State α} {tr : List (Ev α)}
    (h : Reach txSize ok (init ram) s tr) (m : α) (hm : s.main = .unlock m false) : s.queue.length = txSize := by
  induction h with
  | start => cases hm
  | @step s s' tr e a hr _ hs ih =>
    have hi := reach_inv hr
    obtain ⟨hdr, dat, p, tc, ile, wire, q, main, isr⟩ := s
    obtain ⟨h1, h2, h3, h4, h5⟩ := hi
    dsimp only at ih h1 h2
    cases a with
    | call c =>
      simp only [step] at hs
      split at hs
      · cases hs
        cases c with
        | send m => by_cases h0 : txSize = 0 <;> simp [start, h0] at hm
        | ready => cases hm
      · cases hs; exact ih hm
    | interrupt =>
      simp only [step] at hs
      split at hs
      · split_ifs at hs <;> cases hs <;> exact ih hm
      · cases hs; exact ih hm
    | complete k =>
      simp only [step] at hs
      split_ifs at hs <;> cases hs <;> exact ih hm
    | isr k =>
      simp only [step] at hs
      cases isr with
      | none => cases hs; exact ih hm
      | header =>
        cases q with
        | nil => simp [isrStep] at hs
        | cons m q => simp only [isrStep] at hs; split_ifs at hs <;> cases hs <;> exact ih hm
      | data j =>
        obtain ⟨m, r, h6, -⟩ := h5
        dsimp only at h6
        subst h6
        cases hs
        exact ih hm
      | pop =>
        cases hs
        dsimp only at hm
        subst hm
        have := ((h1 h4).1 trivial).2
        cases this
      | _ => cases hs; exact ih hm
    | main k =>
      simp only [step] at hs
      split at hs
      · cases main with
        | full m' =>
          simp only [mainStep, leave] at hs
          split_ifs at hs <;> cases hs <;> cases hm
        | room m' =>
          simp only [mainStep, leave] at hs
          split_ifs at hs with hl <;> cases hs <;> first | exact hl | cases hm
        | push m' =>
          simp only [mainStep, leave] at hs
          split_ifs at hs with hl <;> cases hs <;> cases hm
        | again m' =>
          simp only [MainOk] at h4
          simp only [mainStep, h4] at hs
          cases hs
          cases hm
        | header m' =>
          simp only [mainStep] at hs
          split_ifs at hs <;> cases hs <;> cases hm
        | request m' j =>
          simp only [mainStep, leave] at hs
          split_ifs at hs <;> cases hs <;> cases hm
        | ready =>
          simp only [mainStep] at hs
          split_ifs at hs <;> cases hs <;> cases hm
        | _ => (cases hs; cases hm)
      · cases hs; exact ih hm

/-- **C158** `sendMessage` only returns `false` if the queue is full, and without a queue only if all buffers of the hardware are pending. -/
theorem C158_refused {txSize : Nat} {ram : Fin 3 → α} {s s' : State α} {tr e : List (Ev α)} (h : Reach txSize (fun _ _ => True) (init ram) s tr)
    {a : Act α} (hs : step txSize s a = some (s', e)) {m : α} (hm : .sent m false ∈ e) :
    s.queue.length = txSize ∧ (txSize = 0 → ∀ k, s.pending k = true) := by
  have hi := reach_inv h
  have hu := unlock_false h
  obtain ⟨hdr, dat, p, tc, ile, wire, q, main, isr⟩ := s
  obtain ⟨h1, h2, h3, h4, h5⟩ := hi
  dsimp only at hu h1 h2 h3 ⊢
  cases a with
  | call c =>
    simp only [step] at hs
    split at hs <;> cases hs <;> simp at hm
  | interrupt =>
    simp only [step] at hs
    split at hs
    · split_ifs at hs <;> cases hs <;> simp at hm
    · cases hs; simp at hm
  | complete k =>
    simp only [step] at hs
    split_ifs at hs <;> cases hs <;> simp at hm
  | isr k =>
    simp only [step, Option.map_eq_some_iff] at hs
    obtain ⟨s1, -, hs⟩ := hs
    cases hs
    simp at hm
  | main k =>
    simp only [step] at hs
    split at hs
    · cases main with
      | full m' =>
        simp only [mainStep, leave] at hs
        split_ifs at hs with hf h0
        · cases hs
          refine ⟨by omega, fun _ => ?_⟩
          simp only [hwFull, Bool.and_eq_true] at hf
          intro k
          fin_cases k
          · exact hf.1.1
          · exact hf.1.2
          · exact hf.2
        · cases hs; simp at hm
        · cases hs; simp at hm
      | room m' =>
        simp only [mainStep, leave, if_neg h4.1] at hs
        split_ifs at hs <;> cases hs <;> simp at hm
      | push m' =>
        simp only [mainStep, leave] at hs
        split_ifs at hs <;> cases hs <;> simp at hm
      | again m' =>
        simp only [MainOk] at h4
        simp only [mainStep, h4] at hs
        cases hs
        simp at hm
      | header m' =>
        simp only [mainStep] at hs
        split_ifs at hs <;> cases hs <;> simp at hm
      | request m' j =>
        simp only [mainStep, leave] at hs
        split_ifs at hs <;> cases hs <;> simp at hm
      | unlock m' ok =>
        cases hs
        simp at hm
        obtain ⟨rfl, rfl⟩ := hm
        exact ⟨hu _ rfl, fun h0 => absurd h0 h4⟩
      | ready =>
        simp only [mainStep] at hs
        split_ifs at hs <;> cases hs <;> simp at hm
      | _ => cases hs; simp at hm
    · cases hs; simp at hm

example : ∃ s tr, Reach 1 (fun _ _ => True) (init fun _ => 0) s tr ∧ .sent 14 false ∈ tr := by
  refine ⟨_, _, reach_mono (fun _ _ _ => trivial) (check_reach (ok := fun _ _ => true) (send 10 0 ++ send 11 1 ++ send 12 2 ++ send 13 0 ++ send 14 0) .start rfl), ?_⟩
  decide

private theorem announced_append (b : Bool) (x y : List (Ev α)) : announced b (x ++ y) = announced (announced b x) y := by
  induction x generalizing b with
  | nil => rfl
  | cons e x ih => cases e <;> simp [announced, ih]

/-- Between `isReadyToSend` and the end of `sendMessage` there is room. -/
private def Room (txSize : Nat) (s : State α) : Prop :=
  match s.main with
  | .unlock _ ok => ok = true
  | _ => s.queue.length < txSize

private theorem room_of_main {txSize : Nat} {s s' : State α} (h : Room txSize s) (hm : s'.main = s.main) (hq : s'.queue.length ≤ s.queue.length) :
    Room txSize s' := by
  obtain ⟨hdr, dat, p, tc, ile, wire, q, main, isr⟩ := s
  simp only [Room, hm] at h ⊢
  cases main <;> simp_all <;> omega

private theorem room_step {txSize : Nat} (h0 : txSize ≠ 0) {s s' : State α} {e : List (Ev α)} {a : Act α} {b : Bool} (hi : Inv txSize s)
    (h : b = true → Room txSize s) (hs : step txSize s a = some (s', e)) (hb : announced b e = true) : Room txSize s' := by
  obtain ⟨hdr, dat, p, tc, ile, wire, q, main, isr⟩ := s
  obtain ⟨h1, h2, h3, h4, h5⟩ := hi
  dsimp only at h3
  cases a with
  | call c =>
    simp only [step] at hs
    split at hs
    · cases hs
      have := h hb
      cases c <;> simpa [Room, start, h0] using this
    · cases hs; exact h hb
  | interrupt =>
    simp only [step] at hs
    split at hs
    · split_ifs at hs <;> cases hs <;> exact h hb
    · cases hs; exact h hb
  | complete k =>
    simp only [step] at hs
    split_ifs at hs <;> cases hs <;> exact h hb
  | isr k =>
    simp only [step] at hs
    cases isr with
    | header =>
      cases q with
      | nil => simp [isrStep] at hs
      | cons m q => simp only [isrStep] at hs; split_ifs at hs <;> cases hs <;> exact h hb
    | data j =>
      obtain ⟨m, r, h6, -⟩ := h5
      dsimp only at h6
      subst h6
      cases hs
      exact h hb
    | pop => cases hs; exact room_of_main (h hb) rfl (by simp)
    | _ => cases hs; exact h hb
  | main k =>
    simp only [step] at hs
    split at hs
    · cases main with
      | idle => cases hs; exact h hb
      | lock m => cases hs; exact h hb
      | full m =>
        simp only [mainStep, if_neg h0] at hs
        split_ifs at hs <;> cases hs <;> exact h hb
      | room m =>
        simp only [mainStep, leave, if_neg h0] at hs
        split_ifs at hs with hl <;> cases hs
        · have := h hb
          simp only [Room] at this
          omega
        · exact h hb
      | push m =>
        simp only [mainStep, leave, if_neg h0] at hs
        cases hs
        rfl
      | again m =>
        simp only [MainOk] at h4
        simp only [mainStep, h4] at hs
        cases hs
        exact h hb
      | header m =>
        simp only [mainStep] at hs
        split_ifs at hs <;> cases hs <;> exact h hb
      | data m j => cases hs; exact h hb
      | request m j =>
        simp only [mainStep, leave, if_neg h0] at hs
        cases hs
        rfl
      | unlock m ok => cases hs; simp [announced] at hb
      | ready =>
        simp only [mainStep, if_neg h0] at hs
        cases hs
        simp [announced] at hb
        simp only [Room]
        omega
    · cases hs; exact h hb

/-- **C158** With a queue, after `isReadyToSend` has returned `true` the next `sendMessage` does not return `false`. -/
theorem C158_ready {txSize : Nat} (h0 : txSize ≠ 0) {ram : Fin 3 → α} {s s' : State α} {tr e : List (Ev α)}
    (h : Reach txSize (fun _ _ => True) (init ram) s tr) (hb : announced false tr = true) {a : Act α} (hs : step txSize s a = some (s', e))
    (m : α) : .sent m false ∉ e := by
  have hroom : Room txSize s := by
    clear hs
    induction h with
    | start => cases hb
    | @step s s' tr e a hr _ hs ih =>
      rw [announced_append] at hb
      exact room_step h0 (reach_inv hr) ih hs hb
  intro hm
  have hq := (C158_refused h hs hm).1
  obtain ⟨hdr, dat, p, tc, ile, wire, q, main, isr⟩ := s
  have hu : ∃ m, main = .unlock m false := by
    cases a with
    | call c => simp only [step] at hs; split at hs <;> cases hs <;> simp at hm
    | interrupt =>
      simp only [step] at hs
      split at hs
      · split_ifs at hs <;> cases hs <;> simp at hm
      · cases hs; simp at hm
    | complete k => simp only [step] at hs; split_ifs at hs <;> cases hs <;> simp at hm
    | isr k =>
      simp only [step, Option.map_eq_some_iff] at hs
      obtain ⟨s1, -, hs⟩ := hs
      cases hs
      simp at hm
    | main k =>
      simp only [step] at hs
      split at hs
      · cases main with
        | unlock m' ok =>
          cases hs
          simp at hm
          exact ⟨m', by rw [hm.2]⟩
        | _ => (simp only [mainStep, leave, if_neg h0] at hs); (try split_ifs at hs) <;> cases hs <;> simp at hm
      · cases hs; simp at hm
  obtain ⟨m', rfl⟩ := hu
  cases hroom

example : ∃ s tr, Reach 1 (fun _ _ => True) (init fun _ => 0) s tr ∧ announced false tr = true ∧ (∀ k, s.pending k = true) := by
  refine ⟨_, _, reach_mono (fun _ _ _ => trivial) (check_reach (ok := fun _ _ => true)
    (send 10 0 ++ send 11 1 ++ send 12 2 ++ [.call .ready, .main 0]) .start rfl), ?_⟩
  decide

/-- **C158** is false without a queue, always: `isReadyToSend` returns `true` exactly if all buffers are pending, and `sendMessage` then returns `false`; when it returns
`false`, `sendMessage` would take the message. -/
theorem C158_ready_counterexample (s : State α) (hm : s.main = .idle) (hi : s.isr = .none) (m : α) (k : Fin 3) :
    ∃ s1 b, run 0 s [.call .ready, .main k] = some (s1, [.called .ready, .ready b]) ∧ (b = true ↔ ∀ j, s.pending j = true) ∧
      (b = true → ∃ s2, run 0 s1 [.call (.send m), .main k] = some (s2, [.called (.send m), .sent m false])) ∧
      (b = false → s.pending k = false → ∃ s2, run 0 s1 [.call (.send m), .main k, .main k, .main k, .main k, .main k] =
        some (s2, [.called (.send m), .sent m true])) := by
  obtain ⟨hdr, dat, p, tc, ile, wire, q, main, isr⟩ := s
  dsimp only at hm hi ⊢
  subst hm hi
  refine ⟨⟨hdr, dat, p, tc, ile, wire, q, .idle, .none⟩, p 0 && p 1 && p 2, rfl, ?_, ?_, ?_⟩
  · constructor
    · intro h j
      simp only [Bool.and_eq_true] at h
      fin_cases j
      · exact h.1.1
      · exact h.1.2
      · exact h.2
    · intro h
      simp [h]
  · intro h
    simp only [run, step, start, mainStep, leave, hwFull, h, Option.bind_eq_bind, Option.bind_some, if_true]
    exact ⟨_, rfl⟩
  · intro h hk
    simp only [run, step, start, mainStep, leave, hwFull, h, hk, Option.bind_eq_bind, Option.bind_some, Bool.false_eq_true, if_true, if_false]
    exact ⟨_, rfl⟩

/-- The shape of the states if there is one message at a time. -/
private structure Single (s : State α) (tr : List (Ev α)) : Prop where
  queue : s.queue = []
  eq : (taken tr ++ inflight s.main).map frame = s.wire ++ waiting s
  place : match s.main with
    | .room _ | .push _ => False
    | .lock _ | .full _ | .again _ | .header _ | .data _ _ | .request _ _ => ∀ k, s.pending k = false
    | _ => True
  one : ∃ k, ∀ j, j ≠ k → s.pending j = false

private theorem waiting_none {s : State α} (h : ∀ k, s.pending k = false) : waiting s = [] := by simp [waiting, h]

private theorem waiting_one {s : State α} (k : Fin 3) (hk : s.pending k = true) (h : ∀ j, j ≠ k → s.pending j = false) : waiting s = [(s.hdr k, s.dat k)] := by
  simp only [waiting, List.flatMap_cons, List.flatMap_nil, List.append_nil]
  fin_cases k
  · simp [h 1, h 2]; exact hk
  · simp [h 0, h 2]; exact hk
  · simp [h 0, h 1]; exact hk

private theorem single_step {txSize : Nat} {s s' : State α} {tr e : List (Ev α)} {a : Act α} (hi : Inv txSize s) (h : Single s tr)
    (hok : OneAtATime s a) (hs : step txSize s a = some (s', e)) : Single s' (tr ++ e) := by
  obtain ⟨hdr, dat, p, tc, ile, wire, q, main, isr⟩ := s
  obtain ⟨g1, g2, g3, g4, g5⟩ := hi
  obtain ⟨h1, h2, h3, h4⟩ := h
  dsimp only at h1 h2 h3 h4
  subst h1
  have hw : ∀ (s' : State α), s'.pending = p → s'.hdr = hdr → s'.dat = dat → waiting s' = waiting ⟨hdr, dat, p, tc, ile, wire, [], main, isr⟩ :=
    fun s' e1 e2 e3 => by simp only [waiting, e1, e2, e3]
  cases a with
  | call c =>
    simp only [step] at hs
    split at hs
    · cases hs
      cases c with
      | send m =>
        obtain ⟨-, hp⟩ := hok
        have hst : start txSize (.send m) = .full m ∨ start txSize (.send m) = .lock m := by
          by_cases h0 : txSize = 0 <;> simp [start, h0]
        rcases hst with hst | hst <;> rw [hst] <;>
          exact ⟨rfl, by rw [hw _ rfl rfl rfl, taken_append]; simpa [taken, inflight] using h2, hp, h4⟩
      | ready => exact ⟨rfl, by rw [hw _ rfl rfl rfl, taken_append]; simpa [taken, inflight, start] using h2, trivial, h4⟩
    · cases hs; exact ⟨rfl, by simpa using h2, h3, h4⟩
  | interrupt =>
    simp only [step] at hs
    split at hs
    · split_ifs at hs <;> cases hs <;> exact ⟨rfl, by rw [hw _ rfl rfl rfl]; simpa using h2, h3, h4⟩
    · cases hs; exact ⟨rfl, by simpa using h2, h3, h4⟩
  | complete k =>
    simp only [step] at hs
    split_ifs at hs with hk
    · cases hs
      obtain ⟨k0, h4⟩ := h4
      have hkk : k = k0 := by
        by_contra hne
        rw [h4 k hne] at hk
        cases hk
      subst hkk
      rw [waiting_one k hk h4] at h2
      have hnone : ∀ j, upd p k false j = false := fun j => by
        by_cases hj : j = k
        · simp [upd, hj]
        · simp [upd, hj, h4 j hj]
      refine ⟨rfl, ?_, ?_, k, fun j _ => hnone j⟩
      · rw [waiting_none (by exact hnone), List.append_nil]
        simpa using h2
      · cases main <;> first | exact h3 | exact hnone
    · cases hs; exact ⟨rfl, by simpa using h2, h3, h4⟩
  | isr k =>
    simp only [step] at hs
    cases isr with
    | header => exact absurd rfl g5.1
    | data j => obtain ⟨m, r, h6, -⟩ := g5; cases h6
    | request j => obtain ⟨m, r, h6, -⟩ := g5; cases h6
    | pop => exact absurd rfl g5.1
    | _ => cases hs; exact ⟨rfl, by rw [hw _ rfl rfl rfl]; simpa using h2, h3, h4⟩
  | main k =>
    simp only [step] at hs
    split at hs
    · cases main with
      | idle => cases hs; exact ⟨rfl, by simpa using h2, h3, h4⟩
      | lock m => cases hs; exact ⟨rfl, by rw [hw _ rfl rfl rfl]; simpa [inflight] using h2, h3, h4⟩
      | full m =>
        have hf : hwFull (⟨hdr, dat, p, tc, ile, wire, [], .full m, .none⟩ : State α) = false := by simp [hwFull, h3 0]
        simp only [mainStep, hf] at hs
        cases hs
        exact ⟨rfl, by rw [hw _ rfl rfl rfl]; simpa [inflight] using h2, h3, h4⟩
      | room m => exact absurd h3 id
      | push m => exact absurd h3 id
      | again m =>
        simp only [MainOk] at g4
        simp only [mainStep, g4] at hs
        cases hs
        exact ⟨rfl, by rw [hw _ rfl rfl rfl]; simpa [inflight] using h2, h3, h4⟩
      | header m =>
        simp only [mainStep, h3 k] at hs
        cases hs
        refine ⟨rfl, ?_, h3, h4⟩
        rw [waiting_none (by exact h3)] at h2 ⊢
        simpa [inflight] using h2
      | data m j =>
        cases hs
        refine ⟨rfl, ?_, h3, h4⟩
        rw [waiting_none (by exact h3)] at h2 ⊢
        simpa [inflight] using h2
      | request m j =>
        obtain ⟨-, g6, g7⟩ := g4
        dsimp only at g6 g7
        rw [waiting_none (by exact h3)] at h2
        have hone : ∀ i, i ≠ j → upd p j true i = false := fun i hi => by simp [upd, hi, h3 i]
        simp only [mainStep, leave] at hs
        split_ifs at hs <;> cases hs
        · refine ⟨rfl, ?_, trivial, j, hone⟩
          rw [waiting_one j (by simp [upd]) (by exact hone), taken_append]
          simp [inflight, taken, g6, g7, frame] at h2 ⊢
          exact h2
        · refine ⟨rfl, ?_, trivial, j, hone⟩
          rw [waiting_one j (by simp [upd]) (by exact hone), taken_append]
          simp [inflight, taken, g6, g7, frame] at h2 ⊢
          exact h2
      | unlock m ok =>
        cases hs
        refine ⟨rfl, ?_, trivial, h4⟩
        rw [hw _ rfl rfl rfl, taken_append]
        cases ok <;> simpa [inflight, taken] using h2
      | ready =>
        simp only [mainStep] at hs
        split_ifs at hs <;> cases hs <;>
          exact ⟨rfl, by rw [hw _ rfl rfl rfl, taken_append]; simpa [inflight, taken] using h2, trivial, h4⟩
    · cases hs; exact ⟨rfl, by simpa using h2, h3, h4⟩

private theorem reach_single {txSize : Nat} {ram : Fin 3 → α} {s : State α} {tr : List (Ev α)} (h : Reach txSize OneAtATime (init ram) s tr) : Single s tr := by
  induction h with
  | start => exact ⟨rfl, rfl, trivial, 0, fun _ _ => rfl⟩
  | step a hr hok hs ih => exact single_step (reach_inv hr) ih hok hs

/-- **C157** (part) If `sendMessage` is only called while no message waits, the frames are sent in the order of the calls.  Missing: several waiting messages, where this is
false, even for messages with the same identifier. -/
theorem C157_order_partial {txSize : Nat} {ram : Fin 3 → α} {s : State α} {tr : List (Ev α)} (h : Reach txSize OneAtATime (init ram) s tr)
    (hm : s.main = .idle) : (taken tr).map frame = s.wire ++ waiting s := by
  have := reach_single h
  simpa [hm, inflight] using this.eq

private instance (s : State Nat) (a : Act Nat) : Decidable (OneAtATime s a) := by
  cases a with
  | call c => cases c <;> simp only [OneAtATime] <;> infer_instance
  | _ => simp only [OneAtATime]; infer_instance

private instance (id : Nat → Nat) (s : State Nat) (a : Act Nat) : Decidable (Priority id s a) := by
  cases a <;> simp only [Priority] <;> infer_instance

example : ∃ s tr, Reach 2 OneAtATime (init fun _ => 0) s tr ∧ s.main = .idle ∧ s.wire = [(10, 10), (11, 11)] ∧ taken tr = [10, 11, 12] := by
  refine ⟨_, _, reach_mono (fun _ _ h => of_decide_eq_true h) (check_reach (ok := fun s a => decide (OneAtATime s a))
    (send 10 0 ++ [.complete 0] ++ handler 0 ++ send 11 1 ++ [.complete 1] ++ send 12 0) .start rfl), ?_⟩
  decide

/-- **C157** is false in general: messages with the same identifier are not sent in the order of the calls.  The hardware sends the one in the lowest buffer first, and a
message may overtake those in the queue, because `sendMessage` uses a free buffer also if the queue is not empty. -/
theorem C157_order_counterexample :
    (∃ s tr, Reach 4 (Priority fun _ => 1) (init fun _ => 0) s tr ∧ taken tr = [10, 11, 12, 13] ∧ s.queue = [] ∧
      s.wire = [(10, 10), (13, 13), (11, 11), (12, 12)]) ∧
    ∃ s tr, Reach 4 (Priority fun _ => 1) (init fun _ => 0) s tr ∧ taken tr = [10, 11, 12, 13, 14] ∧ s.queue = [13] ∧
      s.wire = [(10, 10), (14, 14)] := by
  constructor
  · refine ⟨_, _, reach_mono (fun _ _ h => of_decide_eq_true h) (check_reach (ok := fun s a => decide (Priority (fun _ => 1) s a))
      (send 10 0 ++ send 11 1 ++ send 12 2 ++ [.complete 0] ++ handler 0 ++ send 13 0 ++ [.complete 0, .complete 1, .complete 2]) .start rfl), ?_⟩
    decide
  · refine ⟨_, _, reach_mono (fun _ _ h => of_decide_eq_true h) (check_reach (ok := fun s a => decide (Priority (fun _ => 1) s a))
      (send 10 0 ++ send 11 1 ++ send 12 2 ++ send 13 0 ++ [.complete 0] ++ send 14 0 ++ [.complete 0]) .start rfl), ?_⟩
    decide

end Props.FdcanTx
