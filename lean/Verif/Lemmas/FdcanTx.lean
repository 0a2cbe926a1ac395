import Verif.Spec.FdcanTx
import Mathlib.Data.List.Count
import Mathlib.Data.Fintype.Basic
import Mathlib.Tactic.FinCases
import Mathlib.Tactic.SplitIfs

set_option autoImplicit false

namespace Modm.FdcanTx

open Spec.FdcanTx

variable {α : Type}

/-- Something will call the handler. -/
def Alive (s : State α) : Prop := (∃ k, s.pending k = true) ∨ s.tc = true

/-- `sendMessage` is inside the lock. -/
def Locked : Main α → Prop
  | .idle | .lock _ | .ready => False
  | _ => True

/-- What holds at the place of the main program. -/
def MainOk (txSize : Nat) (s : State α) : Prop :=
  match s.main with
  | .room _ => txSize ≠ 0 ∧ Alive s
  | .push _ => txSize ≠ 0 ∧ Alive s ∧ s.queue.length < txSize
  | .again _ => hwFull s = false
  | .header _ => hwFull s = false
  | .data m k => s.pending k = false ∧ s.hdr k = m
  | .request m k => s.pending k = false ∧ s.hdr k = m ∧ s.dat k = m
  | .unlock _ _ => txSize ≠ 0
  | .lock _ => txSize ≠ 0
  | _ => True

/-- What holds at the place of the handler. -/
def IsrOk (s : State α) : Prop :=
  match s.isr with
  | .none => s.queue ≠ [] → Alive s
  | .flag => s.queue ≠ [] → Alive s
  | .clear => True
  | .check => True
  | .full => s.queue ≠ []
  | .header => s.queue ≠ [] ∧ hwFull s = false
  | .data k => ∃ m q, s.queue = m :: q ∧ s.pending k = false ∧ s.hdr k = m
  | .request k => ∃ m q, s.queue = m :: q ∧ s.pending k = false ∧ s.hdr k = m ∧ s.dat k = m
  | .pop => s.queue ≠ [] ∧ Alive s

structure Inv (txSize : Nat) (s : State α) : Prop where
  lock : txSize ≠ 0 → (Locked s.main → s.ile = false ∧ s.isr = .none) ∧ (¬ Locked s.main → s.ile = true)
  plain : txSize = 0 → s.isr = .none
  len : s.queue.length ≤ txSize
  main : MainOk txSize s
  isr : IsrOk s

theorem hwFull_upd {s : State α} (k : Fin 3) (h : s.pending k = true) (s' : State α) (h' : s'.pending = upd s.pending k false) : hwFull s' = false := by
  simp only [hwFull, h', upd]
  fin_cases k <;> simp

theorem alive_of_full {s : State α} (h : hwFull s = true) : Alive s := by
  refine .inl ⟨0, ?_⟩
  simp only [hwFull, Bool.and_eq_true] at h
  exact h.1.1

theorem inv_init (txSize : Nat) (ram : Fin 3 → α) : Inv txSize (init ram) :=
  ⟨fun _ => ⟨fun h => (nomatch h), fun _ => rfl⟩, fun _ => rfl, Nat.zero_le _, trivial, fun h => absurd rfl h⟩

theorem step_defined {txSize : Nat} {s : State α} (h : Inv txSize s) (a : Act α) : ∃ s' e, step txSize s a = some (s', e) := by
  cases a with
  | call c => simp only [step]; split <;> exact ⟨_, _, rfl⟩
  | main k => simp only [step]; split <;> exact ⟨_, _, rfl⟩
  | interrupt => simp only [step]; split <;> (try split_ifs) <;> exact ⟨_, _, rfl⟩
  | complete k => simp only [step]; split_ifs <;> exact ⟨_, _, rfl⟩
  | isr k =>
    obtain ⟨hdr, dat, p, tc, ile, wire, q, main, isr⟩ := s
    have hi := h.isr
    cases isr with
    | header =>
      obtain ⟨h1, -⟩ := hi
      dsimp only at h1
      cases q with
      | nil => exact absurd rfl h1
      | cons m q => simp only [step, isrStep]; split_ifs <;> exact ⟨_, _, rfl⟩
    | data j =>
      obtain ⟨m, r, h1, -⟩ := hi
      dsimp only at h1
      subst h1
      exact ⟨_, _, rfl⟩
    | _ => exact ⟨_, _, rfl⟩

theorem inv_call {txSize : Nat} {s s' : State α} {e : List (Ev α)} {c : Call α} (h : Inv txSize s)
    (hs : step txSize s (.call c) = some (s', e)) : Inv txSize s' := by
  obtain ⟨hdr, dat, p, tc, ile, wire, q, main, isr⟩ := s
  obtain ⟨h1, h2, h3, h4, h5⟩ := h
  simp only [step] at hs
  split at hs
  · cases hs
    refine ⟨fun h0 => ?_, h2, h3, ?_, h5⟩
    · have := (h1 h0).2 id
      cases c <;> simp_all [start, Locked]
    · cases c with
      | send m =>
        by_cases h0 : txSize = 0
        · simp [start, h0, MainOk]
        · simp [start, h0, MainOk]
      | ready => trivial
  · cases hs; exact ⟨h1, h2, h3, h4, h5⟩

theorem inv_interrupt {txSize : Nat} {s s' : State α} {e : List (Ev α)} (h : Inv txSize s)
    (hs : step txSize s .interrupt = some (s', e)) : Inv txSize s' := by
  obtain ⟨hdr, dat, p, tc, ile, wire, q, main, isr⟩ := s
  simp only [step] at hs
  split at hs
  · split_ifs at hs with hc
    · cases hs
      obtain ⟨h1, h2, h3, h4, h5⟩ := h
      refine ⟨fun h0 => ⟨fun hl => ?_, fun hl => (h1 h0).2 hl⟩, fun h0 => absurd h0 hc.1, h3, h4, h5⟩
      have := ((h1 h0).1 hl).1
      rw [hc.2] at this
      cases this
    · cases hs; exact h
  · cases hs; exact h

theorem inv_complete {txSize : Nat} {s s' : State α} {e : List (Ev α)} {k : Fin 3} (h : Inv txSize s)
    (hs : step txSize s (.complete k) = some (s', e)) : Inv txSize s' := by
  obtain ⟨hdr, dat, p, tc, ile, wire, q, main, isr⟩ := s
  simp only [step] at hs
  split_ifs at hs with hk
  · cases hs
    obtain ⟨h1, h2, h3, h4, h5⟩ := h
    have hf : ∀ (s' : State α), s'.pending = upd p k false → hwFull s' = false := fun s' h' => hwFull_upd (s := ⟨hdr, dat, p, tc, ile, wire, q, main, isr⟩) k hk s' h'
    have hp : ∀ j, p j = false → upd p k false j = false := fun j hj => by
      by_cases hjk : j = k <;> simp [upd, hjk]
      rw [← hj]
    refine ⟨h1, h2, h3, ?_, ?_⟩
    · cases main with
      | room m => exact ⟨h4.1, .inr rfl⟩
      | push m => exact ⟨h4.1, .inr rfl, h4.2.2⟩
      | again m => exact hf _ rfl
      | header m => exact hf _ rfl
      | data m j => exact ⟨hp _ h4.1, h4.2⟩
      | request m j => exact ⟨hp _ h4.1, h4.2⟩
      | _ => exact h4
    · cases isr with
      | none => exact fun _ => .inr rfl
      | flag => exact fun _ => .inr rfl
      | header => exact ⟨h5.1, hf _ rfl⟩
      | data j => obtain ⟨m, r, h6, h7, h8⟩ := h5; exact ⟨m, r, h6, hp _ h7, h8⟩
      | request j => obtain ⟨m, r, h6, h7, h8⟩ := h5; exact ⟨m, r, h6, hp _ h7, h8⟩
      | pop => exact ⟨h5.1, .inr rfl⟩
      | _ => exact h5
  · cases hs; exact h

theorem inv_isr {txSize : Nat} {s s' : State α} {e : List (Ev α)} {k : Fin 3} (h : Inv txSize s)
    (hs : step txSize s (.isr k) = some (s', e)) : Inv txSize s' := by
  obtain ⟨hdr, dat, p, tc, ile, wire, q, main, isr⟩ := s
  obtain ⟨h1, h2, h3, h4, h5⟩ := h
  dsimp only at h1 h2 h3
  -- the program is not inside the lock
  have hml : isr ≠ .none → txSize ≠ 0 ∧ ¬ Locked main := fun hn =>
    ⟨fun h0 => hn (h2 h0), fun hl => hn ((h1 fun h0 => hn (h2 h0)).1 hl).2⟩
  have hmain : isr ≠ .none → ∀ s' : State α, s'.main = main → MainOk txSize s' := fun hn s' hm => by
    obtain ⟨h0, hl⟩ := hml hn
    cases main <;> simp_all [MainOk, Locked]
  simp only [step] at hs
  cases isr with
  | none => cases hs; exact ⟨h1, h2, h3, h4, h5⟩
  | flag =>
    obtain ⟨h0, hl⟩ := hml (by simp)
    cases hs
    refine ⟨fun _ => ⟨fun h => absurd h hl, fun _ => (h1 h0).2 hl⟩, fun h => absurd h h0, h3, hmain (by simp) _ rfl, ?_⟩
    cases tc
    · exact h5
    · trivial
  | clear =>
    obtain ⟨h0, hl⟩ := hml (by simp)
    cases hs
    exact ⟨fun _ => ⟨fun h => absurd h hl, fun _ => (h1 h0).2 hl⟩, fun h => absurd h h0, h3, hmain (by simp) _ rfl, trivial⟩
  | check =>
    obtain ⟨h0, hl⟩ := hml (by simp)
    cases hs
    refine ⟨fun _ => ⟨fun h => absurd h hl, fun _ => (h1 h0).2 hl⟩, fun h => absurd h h0, h3, hmain (by simp) _ rfl, ?_⟩
    cases q with
    | nil => exact fun h => absurd rfl h
    | cons m q => simp [IsrOk]
  | full =>
    obtain ⟨h0, hl⟩ := hml (by simp)
    cases hs
    refine ⟨fun _ => ⟨fun h => absurd h hl, fun _ => (h1 h0).2 hl⟩, fun h => absurd h h0, h3, hmain (by simp) _ rfl, ?_⟩
    simp only [IsrOk] at h5
    cases hf : hwFull (⟨hdr, dat, p, tc, ile, wire, q, main, .full⟩ : State α) with
    | true =>
      have := alive_of_full hf
      simpa [IsrOk, Alive] using fun _ => this
    | false => simpa [IsrOk, hwFull] using And.intro h5 hf
  | header =>
    obtain ⟨h0, hl⟩ := hml (by simp)
    obtain ⟨h6, h7⟩ := h5
    dsimp only at h6
    cases q with
    | nil => exact absurd rfl h6
    | cons m q =>
      simp only [isrStep] at hs
      split_ifs at hs with hk
      · cases hs; exact ⟨h1, h2, h3, h4, h6, h7⟩
      · cases hs
        refine ⟨fun _ => ⟨fun h => absurd h hl, fun _ => (h1 h0).2 hl⟩, fun h => absurd h h0, h3, hmain (by simp) _ rfl, ?_⟩
        exact ⟨m, q, rfl, by simpa using hk, by simp [upd]⟩
  | data j =>
    obtain ⟨h0, hl⟩ := hml (by simp)
    obtain ⟨m, r, h6, h7, h8⟩ := h5
    dsimp only at h6
    subst h6
    cases hs
    refine ⟨fun _ => ⟨fun h => absurd h hl, fun _ => (h1 h0).2 hl⟩, fun h => absurd h h0, h3, hmain (by simp) _ rfl, ?_⟩
    exact ⟨m, r, rfl, h7, h8, by simp [upd]⟩
  | request j =>
    obtain ⟨h0, hl⟩ := hml (by simp)
    obtain ⟨m, r, h6, h7, h8⟩ := h5
    dsimp only at h6
    subst h6
    cases hs
    refine ⟨fun _ => ⟨fun h => absurd h hl, fun _ => (h1 h0).2 hl⟩, fun h => absurd h h0, h3, hmain (by simp) _ rfl, ?_⟩
    exact ⟨by simp, .inl ⟨j, by simp [upd]⟩⟩
  | pop =>
    obtain ⟨h0, hl⟩ := hml (by simp)
    obtain ⟨h6, h7⟩ := h5
    cases hs
    refine ⟨fun _ => ⟨fun h => absurd h hl, fun _ => (h1 h0).2 hl⟩, fun h => absurd h h0, ?_, hmain (by simp) _ rfl, ?_⟩
    · simp; omega
    · exact fun _ => h7

theorem inv_main {txSize : Nat} {s s' : State α} {e : List (Ev α)} {k : Fin 3} (h : Inv txSize s)
    (hs : step txSize s (.main k) = some (s', e)) : Inv txSize s' := by
  obtain ⟨hdr, dat, p, tc, ile, wire, q, main, isr⟩ := s
  simp only [step] at hs
  split at hs
  · obtain ⟨h1, h2, h3, h4, h5⟩ := h
    dsimp only at h1 h2 h3
    simp only [IsrOk] at h5
    cases main with
    | idle => cases hs; exact ⟨h1, h2, h3, h4, h5⟩
    | lock m =>
      cases hs
      exact ⟨fun _ => ⟨fun _ => ⟨rfl, rfl⟩, fun h => absurd trivial h⟩, fun _ => rfl, h3, trivial, h5⟩
    | full m =>
      simp only [mainStep, leave] at hs
      split_ifs at hs with hf h0
      · cases hs
        exact ⟨fun h => absurd h0 h, h2, h3, trivial, h5⟩
      · cases hs
        exact ⟨fun h => ⟨fun _ => (h1 h).1 trivial, fun h => absurd trivial h⟩, h2, h3, ⟨h0, alive_of_full hf⟩, h5⟩
      · cases hs
        exact ⟨fun h => ⟨fun _ => (h1 h).1 trivial, fun h => absurd trivial h⟩, h2, h3, by simpa [MainOk, hwFull] using hf, h5⟩
    | room m =>
      obtain ⟨h0, ha⟩ := h4
      simp only [mainStep, leave, if_neg h0] at hs
      split_ifs at hs with hf
      · cases hs
        exact ⟨fun h => ⟨fun _ => (h1 h).1 trivial, fun h => absurd trivial h⟩, h2, h3, h0, h5⟩
      · cases hs
        exact ⟨fun h => ⟨fun _ => (h1 h).1 trivial, fun h => absurd trivial h⟩, h2, h3, ⟨h0, ha, by dsimp only; omega⟩, h5⟩
    | push m =>
      obtain ⟨h0, ha, hl⟩ := h4
      dsimp only at hl
      simp only [mainStep, leave, if_neg h0] at hs
      cases hs
      exact ⟨fun h => ⟨fun _ => (h1 h).1 trivial, fun h => absurd trivial h⟩, h2, by simp; omega, h0, fun _ => ha⟩
    | again m =>
      simp only [MainOk] at h4
      simp only [mainStep, h4] at hs
      cases hs
      exact ⟨fun h => ⟨fun _ => (h1 h).1 trivial, fun h => absurd trivial h⟩, h2, h3, h4, h5⟩
    | header m =>
      simp only [mainStep] at hs
      split_ifs at hs with hf
      · cases hs; exact ⟨h1, h2, h3, h4, h5⟩
      · cases hs
        exact ⟨fun h => ⟨fun _ => (h1 h).1 trivial, fun h => absurd trivial h⟩, h2, h3, ⟨by simpa using hf, by simp [upd]⟩, h5⟩
    | data m j =>
      cases hs
      exact ⟨fun h => ⟨fun _ => (h1 h).1 trivial, fun h => absurd trivial h⟩, h2, h3, ⟨h4.1, h4.2, by simp [upd]⟩, h5⟩
    | request m j =>
      simp only [mainStep, leave] at hs
      split_ifs at hs with h0
      · cases hs
        exact ⟨fun h => absurd h0 h, h2, h3, trivial, fun _ => .inl ⟨j, by simp [upd]⟩⟩
      · cases hs
        exact ⟨fun h => ⟨fun _ => (h1 h).1 trivial, fun h => absurd trivial h⟩, h2, h3, h0, fun _ => .inl ⟨j, by simp [upd]⟩⟩
    | unlock m ok =>
      cases hs
      exact ⟨fun _ => ⟨fun h => (nomatch h), fun _ => rfl⟩, h2, h3, trivial, h5⟩
    | ready =>
      simp only [mainStep] at hs
      split_ifs at hs with h0
      · cases hs
        exact ⟨fun h => absurd h0 h, h2, h3, trivial, h5⟩
      · cases hs
        exact ⟨fun h => ⟨fun h => (nomatch h), fun _ => (h1 h).2 id⟩, h2, h3, trivial, h5⟩
  · cases hs; exact h

theorem inv_step {txSize : Nat} {s s' : State α} {e : List (Ev α)} {a : Act α} (h : Inv txSize s)
    (hs : step txSize s a = some (s', e)) : Inv txSize s' := by
  cases a with
  | call c => exact inv_call h hs
  | main k => exact inv_main h hs
  | interrupt => exact inv_interrupt h hs
  | isr k => exact inv_isr h hs
  | complete k => exact inv_complete h hs

theorem reach_inv {txSize : Nat} {ok : State α → Act α → Prop} {ram : Fin 3 → α} {s : State α} {tr : List (Ev α)}
    (h : Reach txSize ok (init ram) s tr) : Inv txSize s := by
  induction h with
  | start => exact inv_init _ _
  | step a _ _ hs ih => exact inv_step ih hs

theorem taken_append (a b : List (Ev α)) : taken (a ++ b) = taken a ++ taken b := by
  induction a with
  | nil => rfl
  | cons e a ih =>
    cases e with
    | sent m ok => cases ok <;> simp [taken, ih]
    | _ => simp [taken, ih]

/-- The message for which `true` is about to be returned. -/
def inflight : Main α → List α
  | .unlock m true => [m]
  | _ => []

/-- The messages in the queue which are not in the hardware yet. -/
def queued (s : State α) : List α := if s.isr = .pop then s.queue.tail else s.queue

/-- What every step does to the account. -/
theorem step_account {txSize : Nat} {s s' : State α} {e : List (Ev α)} {a : Act α} (h : Inv txSize s)
    (hs : step txSize s a = some (s', e)) [DecidableEq α] (x : α × α) :
    ((taken e ++ inflight s'.main).map frame).count x + (s.wire ++ waiting s ++ (queued s).map frame).count x =
    ((inflight s.main).map frame).count x + (s'.wire ++ waiting s' ++ (queued s').map frame).count x := by
  obtain ⟨hdr, dat, p, tc, ile, wire, q, main, isr⟩ := s
  obtain ⟨h1, h2, h3, h4, h5⟩ := h
  simp only [waiting, List.flatMap_cons, List.flatMap_nil, List.append_nil, List.count_append]
  cases a with
  | call c =>
    simp only [step] at hs
    split at hs
    · cases hs
      cases c with
      | send m => by_cases h0 : txSize = 0 <;> simp [start, h0, inflight, taken, queued]
      | ready => simp [start, inflight, taken, queued]
    · cases hs; simp [taken]
  | interrupt =>
    simp only [step] at hs
    split at hs
    · split_ifs at hs <;> cases hs <;> simp [taken, queued]
    · cases hs; simp [taken]
  | complete k =>
    simp only [step] at hs
    split_ifs at hs with hk
    · cases hs
      fin_cases k <;> simp_all [upd, taken, queued, List.count_cons] <;> omega
    · cases hs; simp [taken]
  | isr k =>
    simp only [step] at hs
    cases isr with
    | none => cases hs; simp [taken]
    | flag => cases hs; cases tc <;> simp [taken, queued]
    | clear => cases hs; simp [taken, queued]
    | check => cases hs; cases q <;> simp [taken, queued]
    | full =>
      cases hs
      cases hf : hwFull (⟨hdr, dat, p, tc, ile, wire, q, main, .full⟩ : State α) <;> simp [taken, queued]
    | header =>
      cases q with
      | nil => simp [isrStep] at hs
      | cons m q =>
        simp only [isrStep] at hs
        split_ifs at hs with hk
        · cases hs; simp [taken]
        · cases hs
          fin_cases k <;> simp_all [upd, taken, queued]
    | data j =>
      obtain ⟨m, r, h6, h7, h8⟩ := h5
      dsimp only at h6
      subst h6
      cases hs
      fin_cases j <;> simp_all [upd, taken, queued]
    | request j =>
      obtain ⟨m, r, h6, h7, h8, h9⟩ := h5
      dsimp only at h6
      subst h6
      cases hs
      fin_cases j <;> simp_all [upd, taken, queued, frame, List.count_cons] <;> omega
    | pop => cases hs; simp [taken, queued]
  | main k =>
    simp only [step] at hs
    split at hs
    · cases main with
      | idle => cases hs; simp [taken]
      | lock m => cases hs; simp [taken, queued, inflight]
      | full m =>
        simp only [mainStep, leave] at hs
        split_ifs at hs <;> cases hs <;> simp [taken, queued, inflight]
      | room m =>
        simp only [mainStep, leave] at hs
        split_ifs at hs <;> cases hs <;> simp [taken, queued, inflight]
      | push m =>
        simp only [mainStep, leave] at hs
        split_ifs at hs <;> cases hs <;> simp [taken, queued, inflight] <;> omega
      | again m =>
        simp only [mainStep, leave] at hs
        split_ifs at hs <;> cases hs <;> simp [taken, queued, inflight]
      | header m =>
        simp only [mainStep] at hs
        split_ifs at hs with hk
        · cases hs; simp [taken]
        · cases hs
          fin_cases k <;> simp_all [upd, taken, queued, inflight]
      | data m j =>
        simp only [MainOk] at h4
        cases hs
        fin_cases j <;> simp_all [upd, taken, queued, inflight]
      | request m j =>
        simp only [MainOk] at h4
        simp only [mainStep, leave] at hs
        split_ifs at hs <;> cases hs <;> fin_cases j <;> simp_all [upd, taken, queued, inflight, frame, List.count_cons] <;> omega
      | unlock m ok => cases hs; cases ok <;> simp [taken, queued, inflight]
      | ready =>
        simp only [mainStep] at hs
        split_ifs at hs <;> cases hs <;> simp [taken, queued, inflight]
    · cases hs; simp [taken]

theorem account {txSize : Nat} {ok : State α → Act α → Prop} {ram : Fin 3 → α} {s : State α} {tr : List (Ev α)}
    (h : Reach txSize ok (init ram) s tr) :
    ((taken tr ++ inflight s.main).map frame).Perm (s.wire ++ waiting s ++ (queued s).map frame) := by
  classical
  rw [List.perm_iff_count]
  intro x
  induction h with
  | start => rfl
  | step a hr _ hs ih =>
    have := step_account (reach_inv hr) hs x
    simp only [taken_append, List.map_append, List.count_append] at *
    omega

end Modm.FdcanTx
