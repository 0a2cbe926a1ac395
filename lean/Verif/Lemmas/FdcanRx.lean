import Verif.Spec.FdcanRx
import Mathlib.Data.Fintype.Basic
import Mathlib.Tactic.FinCases
import Mathlib.Tactic.IntervalCases
import Mathlib.Tactic.SplitIfs

set_option autoImplicit false

namespace Modm.FdcanRx

open Spec.FdcanRx

variable {α : Type}

theorem arrived_append (i : Bool) (a b : List (Ev α)) : arrived i (a ++ b) = arrived i a ++ arrived i b := by
  induction a with
  | nil => rfl
  | cons e a ih =>
    cases e <;> simp only [arrived, List.cons_append, ih]
    split_ifs <;> simp

theorem got_append (i : Bool) (a b : List (Ev α)) : got i (a ++ b) = got i a ++ got i b := by
  induction a with
  | nil => rfl
  | cons e a ih =>
    cases e <;> simp only [got, List.cons_append, ih]
    split_ifs <;> simp

theorem announced_append (a b : List (Ev α)) (x : Bool) : announced x (a ++ b) = announced (announced x a) b := by
  induction a generalizing x with
  | nil => rfl
  | cons e a ih => cases e <;> simp [announced, ih]

/-! ### FIFOs -/

theorem contents_accept {cfg : Config} {f : Fifo α} (i : Bool) (m : α) (h : f.fill < 3) :
    contents (accept cfg f i m).1 = contents f ++ [m] ∧ (accept cfg f i m).2 = [.arrived i m] ∧ (accept cfg f i m).1.get = f.get ∧
    (accept cfg f i m).1.fill = f.fill + 1 ∧ (0 < f.fill → (accept cfg f i m).1.mem f.get = f.mem f.get) := by
  obtain ⟨mem, get, fill⟩ := f
  dsimp only at h
  simp only [accept, if_pos h]
  refine ⟨?_, trivial, trivial, trivial, ?_⟩
  · interval_cases fill <;> fin_cases get <;> rfl
  · intro h0
    interval_cases fill
    · fin_cases get <;> rfl
    · fin_cases get <;> rfl

theorem accept_locked {cfg : Config} {f : Fifo α} (i : Bool) (m : α) (h : ¬ f.fill < 3) (ho : cfg.overwrite = false) :
    accept cfg f i m = (f, [.overrun i m]) := by
  simp [accept, h, ho]

theorem contents_ack {cfg : Config} {f : Fifo α} (h : 0 < f.fill) (h3 : f.fill ≤ 3) :
    contents f = f.mem f.get :: contents (acknowledge cfg f f.get) ∧ (acknowledge cfg f f.get).fill = f.fill - 1 := by
  obtain ⟨mem, get, fill⟩ := f
  dsimp only at h h3
  simp only [acknowledge, if_true, and_true]
  interval_cases fill <;> fin_cases get <;> rfl

theorem contents_nil {f : Fifo α} : contents f = [] ↔ f.fill = 0 := by
  simp [contents]

/-! ### The queue -/

def IsrQ (cfg : Config) (s : State α) : Prop :=
  match s.isr with
  | .none | .limit | .full => True
  | .loop _ n => n + s.queue.length = cfg.rxSize
  | .index _ n | .header _ n _ | .data _ n _ _ | .ack _ n _ _ _ | .push n _ => 0 < n ∧ n + s.queue.length = cfg.rxSize
  | .disable => s.queue.length = cfg.rxSize
  | .clear => s.queue.length < cfg.rxSize

def MainQ (s : State α) : Prop :=
  match s.main with
  | .get => s.queue ≠ []
  | .pop x => s.queue.head? = some x
  | _ => True

/-- The interrupt is only disabled while there is something to be fetched. -/
def Enabled (s : State α) : Prop := s.ile = false → s.queue ≠ [] ∨ ∃ x, s.main = .enable x

structure InvQ (cfg : Config) (s : State α) : Prop where
  len : s.queue.length ≤ cfg.rxSize
  isr : IsrQ cfg s
  main : MainQ s
  enabled : Enabled s

theorem step_defined {cfg : Config} {s : State α} (h : InvQ cfg s) (a : Act α) : ∃ s' e, step cfg s a = some (s', e) := by
  obtain ⟨fifo, rf, ile, q, main, isr⟩ := s
  cases a with
  | call c => simp only [step]; split <;> exact ⟨_, _, rfl⟩
  | interrupt => simp only [step]; split <;> exact ⟨_, _, rfl⟩
  | isr => exact ⟨_, _, rfl⟩
  | arrive i m => exact ⟨_, _, rfl⟩
  | restore => simp only [step]; split <;> exact ⟨_, _, rfl⟩
  | main =>
    simp only [step]
    split
    · cases main with
      | check => simp only [mainStep]; split_ifs <;> exact ⟨_, _, rfl⟩
      | get =>
        have := h.main
        simp only [MainQ] at this
        cases q with
        | nil => exact absurd rfl this
        | cons x q => exact ⟨_, _, rfl⟩
      | _ => exact ⟨_, _, rfl⟩
    · exact ⟨_, _, rfl⟩

theorem invQ_step {cfg : Config} (h0 : 0 < cfg.rxSize) {s s' : State α} {e : List (Ev α)} {a : Act α} (h : InvQ cfg s)
    (hs : step cfg s a = some (s', e)) : InvQ cfg s' ∧ ∀ x, .full x ∉ e := by
  obtain ⟨fifo, rf, ile, q, main, isr⟩ := s
  obtain ⟨h1, h2, h3, h4⟩ := h
  dsimp only at h1
  cases a with
  | call c =>
    simp only [step] at hs
    split at hs
    · cases hs
      refine ⟨⟨h1, h2, ?_, ?_⟩, by simp⟩
      · cases c <;> trivial
      · intro hi
        rcases h4 hi with h5 | ⟨x, h5⟩
        · exact .inl h5
        · cases h5
    · cases hs; exact ⟨⟨h1, h2, h3, h4⟩, by simp⟩
  | interrupt =>
    simp only [step] at hs
    split at hs <;> cases hs
    · exact ⟨⟨h1, trivial, h3, h4⟩, by simp⟩
    · exact ⟨⟨h1, h2, h3, h4⟩, by simp⟩
  | restore =>
    simp only [step] at hs
    split at hs <;> cases hs
    · exact ⟨⟨h1, h2, h3, fun h => by cases h⟩, by simp⟩
    · exact ⟨⟨h1, h2, h3, h4⟩, by simp⟩
  | arrive i m =>
    cases hs
    refine ⟨⟨h1, h2, h3, h4⟩, fun x hx => ?_⟩
    simp only [accept] at hx
    split_ifs at hx <;> simp at hx
  | isr =>
    simp only [step] at hs
    cases isr with
    | none => cases hs; exact ⟨⟨h1, h2, h3, h4⟩, by simp⟩
    | limit => cases hs; exact ⟨⟨h1, by simp only [IsrQ]; omega, h3, h4⟩, by simp⟩
    | loop i n =>
      simp only [IsrQ] at h2
      simp only [isrStep] at hs
      split_ifs at hs with hc <;> cases hs
      · exact ⟨⟨h1, ⟨hc.2, h2⟩, h3, h4⟩, by simp⟩
      · exact ⟨⟨h1, trivial, h3, h4⟩, by simp⟩
      · exact ⟨⟨h1, h2, h3, h4⟩, by simp⟩
    | push n x =>
      obtain ⟨h5, h6⟩ := h2
      dsimp only at h6
      have hl : q.length < cfg.rxSize := by omega
      simp only [isrStep, hl, if_true] at hs
      cases hs
      refine ⟨⟨by simp; omega, ?_, ?_, fun _ => .inl (by simp)⟩, by simp⟩
      · simp [IsrQ]; omega
      · cases main with
        | get => simp [MainQ]
        | pop y => simp only [MainQ] at h3 ⊢; rw [List.head?_append, h3]; rfl
        | _ => trivial
    | full =>
      cases hs
      refine ⟨⟨h1, ?_, h3, h4⟩, by simp⟩
      dsimp only
      split_ifs with hl
      · exact hl
      · simp only [IsrQ]; omega
    | disable =>
      simp only [IsrQ] at h2
      cases hs
      refine ⟨⟨h1, trivial, h3, fun _ => .inl ?_⟩, by simp⟩
      intro hq
      dsimp only at hq
      rw [hq] at h2
      simp at h2
      omega
    | clear => cases hs; exact ⟨⟨h1, trivial, h3, h4⟩, by simp⟩
    | index i n => cases hs; exact ⟨⟨h1, h2, h3, h4⟩, by simp⟩
    | header i n g => cases hs; exact ⟨⟨h1, h2, h3, h4⟩, by simp⟩
    | data i n g h => cases hs; exact ⟨⟨h1, h2, h3, h4⟩, by simp⟩
    | ack i n g h d => cases hs; exact ⟨⟨h1, h2, h3, h4⟩, by simp⟩
  | main =>
    simp only [step] at hs
    split at hs
    · cases main with
      | idle => cases hs; exact ⟨⟨h1, h2, h3, h4⟩, by simp⟩
      | check =>
        have h4' : ile = false → q ≠ [] := fun hi => by
          rcases h4 hi with h5 | ⟨x, h5⟩
          · exact h5
          · cases h5
        simp only [mainStep] at hs
        split_ifs at hs with hq <;> cases hs
        · exact ⟨⟨h1, h2, trivial, fun hi => .inl (h4' hi)⟩, by simp⟩
        · exact ⟨⟨h1, h2, by simpa [MainQ] using hq, fun hi => .inl (h4' hi)⟩, by simp⟩
      | get =>
        have h4' : ile = false → q ≠ [] := fun hi => by
          rcases h4 hi with h5 | ⟨x, h5⟩
          · exact h5
          · cases h5
        cases q with
        | nil => cases hs
        | cons x q =>
          cases hs
          exact ⟨⟨h1, h2, rfl, fun hi => .inl (h4' hi)⟩, by simp⟩
      | pop x =>
        cases hs
        exact ⟨⟨by simp; omega, trivial, trivial, fun _ => .inr ⟨x, rfl⟩⟩, by simp⟩
      | enable x => cases hs; exact ⟨⟨h1, h2, trivial, fun h => by cases h⟩, by simp⟩
      | available =>
        cases hs
        refine ⟨⟨h1, h2, trivial, fun hi => ?_⟩, by simp⟩
        rcases h4 hi with h5 | ⟨x, h5⟩
        · exact .inl h5
        · cases h5
    · cases hs; exact ⟨⟨h1, h2, h3, h4⟩, by simp⟩

theorem reach_invQ {cfg : Config} (h0 : 0 < cfg.rxSize) {ok : State α → Act α → Prop} {ram : Fin 3 → α} {s : State α} {tr : List (Ev α)}
    (h : Reach cfg ok (init ram) s tr) : InvQ cfg s := by
  induction h with
  | start => exact ⟨Nat.zero_le _, trivial, trivial, fun h => by cases h⟩
  | step a _ _ hs ih => exact (invQ_step h0 ih hs).1

/-! ### The FIFOs while they are read -/

def IsrF (s : State α) : Prop :=
  match s.isr with
  | .index i _ => 0 < (s.fifo i).fill
  | .header i _ g => 0 < (s.fifo i).fill ∧ g = (s.fifo i).get
  | .data i _ g h => 0 < (s.fifo i).fill ∧ g = (s.fifo i).get ∧ h = (s.fifo i).mem g
  | .ack i _ g h d => 0 < (s.fifo i).fill ∧ g = (s.fifo i).get ∧ h = (s.fifo i).mem g ∧ d = h
  | _ => True

structure InvF (s : State α) : Prop where
  fill : ∀ i, (s.fifo i).fill ≤ 3
  isr : IsrF s

theorem invF_step {cfg : Config} {s s' : State α} {e : List (Ev α)} {a : Act α} (h : InvF s) (hok : NoOverwrite cfg s a)
    (hs : step cfg s a = some (s', e)) : InvF s' := by
  obtain ⟨fifo, rf, ile, q, main, isr⟩ := s
  obtain ⟨h1, h2⟩ := h
  dsimp only at h1
  cases a with
  | call c =>
    simp only [step] at hs
    split at hs <;> cases hs <;> exact ⟨h1, h2⟩
  | interrupt =>
    simp only [step] at hs
    split at hs <;> cases hs
    · exact ⟨h1, trivial⟩
    · exact ⟨h1, h2⟩
  | restore =>
    simp only [step] at hs
    split at hs <;> cases hs <;> exact ⟨h1, h2⟩
  | main =>
    simp only [step] at hs
    split at hs
    · cases main with
      | check => simp only [mainStep] at hs; split_ifs at hs <;> cases hs <;> exact ⟨h1, h2⟩
      | get =>
        cases q with
        | nil => cases hs
        | cons x q => cases hs; exact ⟨h1, h2⟩
      | _ => cases hs; exact ⟨h1, h2⟩
    · cases hs; exact ⟨h1, h2⟩
  | arrive i m =>
    cases hs
    by_cases hf : (fifo i).fill < 3
    · obtain ⟨-, -, hg, hl, hm⟩ := contents_accept (cfg := cfg) i m hf
      refine ⟨fun j => ?_, ?_⟩
      · by_cases hj : j = i
        · subst hj; simp only [upd, if_true, hl]; omega
        · simp only [upd, if_neg hj]; exact h1 j
      · cases isr with
        | index j n =>
          simp only [IsrF] at h2 ⊢
          by_cases hj : j = i
          · subst hj; simp only [upd, if_true, hl]; omega
          · simp only [upd, if_neg hj]; exact h2
        | header j n g =>
          simp only [IsrF] at h2 ⊢
          by_cases hj : j = i
          · subst hj; simp only [upd, if_true, hl, hg]; exact ⟨by omega, h2.2⟩
          · simp only [upd, if_neg hj]; exact h2
        | data j n g h =>
          simp only [IsrF] at h2 ⊢
          by_cases hj : j = i
          · subst hj
            obtain ⟨h3, rfl, rfl⟩ := h2
            simp only [upd, if_true, hl, hg, hm h3]; exact ⟨by omega, trivial, trivial⟩
          · simp only [upd, if_neg hj]; exact h2
        | ack j n g h d =>
          simp only [IsrF] at h2 ⊢
          by_cases hj : j = i
          · subst hj
            obtain ⟨h3, rfl, rfl, rfl⟩ := h2
            simp only [upd, if_true, hl, hg, hm h3]; exact ⟨by omega, trivial, trivial, trivial⟩
          · simp only [upd, if_neg hj]; exact h2
        | _ => trivial
    · have ho : cfg.overwrite = false := by
        rcases hok with ho | ho
        · exact ho
        · exact absurd ho hf
      simp only [accept_locked i m hf ho]
      have hu : upd fifo i (fifo i) = fifo := by
        funext j
        by_cases hj : j = i <;> simp [upd, hj]
      rw [hu]
      exact ⟨h1, h2⟩
  | isr =>
    simp only [step] at hs
    cases isr with
    | loop i n =>
      simp only [isrStep] at hs
      split_ifs at hs with hc <;> cases hs
      · exact ⟨h1, hc.1⟩
      · exact ⟨h1, trivial⟩
      · exact ⟨h1, trivial⟩
    | push n x =>
      simp only [isrStep] at hs
      split_ifs at hs <;> cases hs <;> exact ⟨h1, trivial⟩
    | full =>
      cases hs
      refine ⟨h1, ?_⟩
      dsimp only
      split_ifs <;> trivial
    | index i n => cases hs; exact ⟨h1, h2, rfl⟩
    | header i n g => cases hs; exact ⟨h1, h2.1, h2.2, rfl⟩
    | data i n g h =>
      cases hs
      obtain ⟨h3, h4, h5⟩ := h2
      exact ⟨h1, h3, h4, h5, h5.symm⟩
    | ack i n g h d =>
      simp only [IsrF] at h2
      obtain ⟨h3, rfl, -, -⟩ := h2
      cases hs
      refine ⟨fun j => ?_, trivial⟩
      by_cases hj : j = i
      · subst hj
        simp only [upd, if_true]
        rw [(contents_ack (cfg := cfg) h3 (h1 j)).2]
        have := h1 j
        omega
      · simp only [upd, if_neg hj]; exact h1 j
    | none => cases hs; exact ⟨h1, h2⟩
    | limit => cases hs; exact ⟨h1, trivial⟩
    | disable => cases hs; exact ⟨h1, trivial⟩
    | clear => cases hs; exact ⟨h1, trivial⟩

/-! ### The way of the messages -/

def inMain (i : Bool) : Main α → List (α × α)
  | .enable x => queued i [x]
  | _ => []

def inIsr (i : Bool) : Isr α → List (α × α)
  | .push _ x => queued i [x]
  | _ => []

def flow (i : Bool) (s : State α) : List (α × α) :=
  inMain i s.main ++ (queued i s.queue ++ (inIsr i s.isr ++ (contents (s.fifo i)).map frame))

theorem queued_append (i : Bool) (a b : List (Item α)) : queued i (a ++ b) = queued i a ++ queued i b := by simp [queued]

theorem flow_step {cfg : Config} {s s' : State α} {e : List (Ev α)} {a : Act α} (hq : InvQ cfg s) (h : InvF s)
    (hok : NoOverwrite cfg s a) (hs : step cfg s a = some (s', e)) (i : Bool) :
    flow i s ++ (arrived i e).map frame = got i e ++ flow i s' := by
  obtain ⟨fifo, rf, ile, q, main, isr⟩ := s
  obtain ⟨h1, h2⟩ := h
  obtain ⟨q1, q2, q3, -⟩ := hq
  dsimp only at h1
  cases a with
  | call c =>
    simp only [step] at hs
    split at hs
    · cases hs
      cases c <;> simp [flow, inMain, arrived, got]
    · cases hs; simp [arrived, got]
  | interrupt =>
    simp only [step] at hs
    split at hs <;> cases hs <;> simp [flow, inIsr, arrived, got]
  | restore =>
    simp only [step] at hs
    split at hs <;> cases hs <;> simp [flow, arrived, got]
  | main =>
    simp only [step] at hs
    split at hs
    · cases main with
      | idle => cases hs; simp [arrived, got]
      | check => simp only [mainStep] at hs; split_ifs at hs <;> cases hs <;> simp [flow, inMain, arrived, got]
      | get =>
        cases q with
        | nil => cases hs
        | cons x q => cases hs; simp [flow, inMain, arrived, got]
      | pop x =>
        obtain ⟨t, rfl⟩ := List.head?_eq_some_iff.1 q3
        cases hs
        have : queued i (x :: t) = queued i [x] ++ queued i t := queued_append i [x] t
        simp [flow, inMain, arrived, got, this]
      | enable x =>
        cases hs
        by_cases hx : x.fifo = i <;> simp [flow, inMain, arrived, got, queued, hx]
      | available => cases hs; simp [flow, inMain, arrived, got]
    · cases hs; simp [arrived, got]
  | arrive j m =>
    cases hs
    by_cases hf : (fifo j).fill < 3
    · obtain ⟨hc, he, -, -, -⟩ := contents_accept (cfg := cfg) j m hf
      by_cases hj : i = j
      · subst hj
        simp [flow, upd, hc, he, arrived, got]
      · simp [flow, upd, hj, he, arrived, got, Ne.symm hj]
    · have ho : cfg.overwrite = false := by
        rcases hok with ho | ho
        · exact ho
        · exact absurd ho hf
      simp only [accept_locked j m hf ho]
      have hu : upd fifo j (fifo j) = fifo := by
        funext k
        by_cases hk : k = j <;> simp [upd, hk]
      simp [flow, hu, arrived, got]
  | isr =>
    simp only [step] at hs
    cases isr with
    | none => cases hs; simp [arrived, got]
    | limit => cases hs; simp [flow, inIsr, arrived, got]
    | loop j n =>
      simp only [isrStep] at hs
      split_ifs at hs <;> cases hs <;> simp [flow, inIsr, arrived, got]
    | index j n => cases hs; simp [flow, inIsr, arrived, got]
    | header j n g => cases hs; simp [flow, inIsr, arrived, got]
    | data j n g h => cases hs; simp [flow, inIsr, arrived, got]
    | ack j n g h d =>
      simp only [IsrF] at h2
      obtain ⟨h3, rfl, rfl, rfl⟩ := h2
      cases hs
      by_cases hj : i = j
      · subst hj
        have := (contents_ack (cfg := cfg) h3 (h1 i)).1
        simp [flow, inIsr, arrived, got, upd, queued, this, frame]
      · simp [flow, inIsr, arrived, got, upd, queued, hj, Ne.symm hj]
    | push n x =>
      obtain ⟨h5, h6⟩ := q2
      dsimp only at h6
      have hl : q.length < cfg.rxSize := by omega
      simp only [isrStep, hl, if_true] at hs
      cases hs
      simp [flow, inIsr, arrived, got, queued_append]
    | full =>
      cases hs
      by_cases hl : q.length = cfg.rxSize <;> simp [flow, inIsr, arrived, got, hl]
    | disable => cases hs; simp [flow, inIsr, arrived, got]
    | clear => cases hs; simp [flow, inIsr, arrived, got]

theorem reach_flow {cfg : Config} (h0 : 0 < cfg.rxSize) {ok : State α → Act α → Prop} (hok : ∀ s a, ok s a → NoOverwrite cfg s a) {ram : Fin 3 → α}
    {s : State α} {tr : List (Ev α)} (h : Reach cfg ok (init ram) s tr) :
    InvF s ∧ ∀ i, (arrived i tr).map frame = got i tr ++ flow i s := by
  induction h with
  | start => exact ⟨⟨fun _ => Nat.zero_le _, trivial⟩, fun _ => rfl⟩
  | step a hr ho hs ih =>
    obtain ⟨ih1, ih2⟩ := ih
    refine ⟨invF_step ih1 (hok _ _ ho) hs, fun i => ?_⟩
    rw [arrived_append, got_append, List.map_append, ih2 i, List.append_assoc, List.append_assoc, flow_step (reach_invQ h0 hr) ih1 (hok _ _ ho) hs i]

/-! ### Nothing is forgotten -/

def IsrS (cfg : Config) (s : State α) : Prop :=
  match s.isr with
  | .loop true n => (s.fifo false).fill = 0 ∨ n = 0
  | .index true _ | .header true _ _ | .data true _ _ _ | .ack true _ _ _ _ => (s.fifo false).fill = 0
  | .push _ x => x.fifo = true → (s.fifo false).fill = 0
  | .full => (∀ i, (s.fifo i).fill = 0) ∨ s.queue.length = cfg.rxSize
  | .clear => ∀ i, (s.fifo i).fill = 0
  | _ => True

structure InvS (cfg : Config) (s : State α) : Prop where
  rf : ∀ i, (s.fifo i).fill ≠ 0 → s.rf i = true
  isr : IsrS cfg s

theorem invS_step {cfg : Config} {s s' : State α} {e : List (Ev α)} {a : Act α} (hq : InvQ cfg s) (hf : InvF s) (h : InvS cfg s)
    (hok : Seen cfg s a) (hs : step cfg s a = some (s', e)) : InvS cfg s' := by
  obtain ⟨fifo, rf, ile, q, main, isr⟩ := s
  obtain ⟨q1, q2, -, -⟩ := hq
  obtain ⟨f1, f2⟩ := hf
  obtain ⟨h1, h2⟩ := h
  dsimp only at h1 f1
  cases a with
  | call c =>
    simp only [step] at hs
    split at hs <;> cases hs <;> exact ⟨h1, h2⟩
  | interrupt =>
    simp only [step] at hs
    split at hs <;> cases hs
    · exact ⟨h1, trivial⟩
    · exact ⟨h1, h2⟩
  | restore =>
    simp only [step] at hs
    split at hs <;> cases hs <;> exact ⟨h1, h2⟩
  | main =>
    simp only [step] at hs
    split at hs
    · cases main with
      | check => simp only [mainStep] at hs; split_ifs at hs <;> cases hs <;> exact ⟨h1, trivial⟩
      | get =>
        cases q with
        | nil => cases hs
        | cons x q => cases hs; exact ⟨h1, trivial⟩
      | _ => cases hs; exact ⟨h1, trivial⟩
    · cases hs; exact ⟨h1, h2⟩
  | arrive i m =>
    obtain ⟨hok, hp⟩ := hok
    cases hs
    by_cases hfi : (fifo i).fill < 3
    · refine ⟨fun j hj => ?_, ?_⟩
      · simp only [hfi, true_or, if_true]
        by_cases hji : j = i
        · simp [upd, hji]
        · simp only [upd, if_neg hji] at hj ⊢; exact h1 j hj
      · cases isr with
        | loop b n | index b n | header b n g | data b n g h | ack b n g h d =>
          cases b
          · trivial
          · have hi : i = true := by
              cases i
              · exact absurd ⟨rfl, rfl⟩ hp
              · rfl
            subst hi
            exact h2
        | push n x =>
          intro hx
          have hi : i = true := by
            cases i
            · exact absurd ⟨rfl, hx⟩ hp
            · rfl
          subst hi
          exact h2 hx
        | full => exact absurd trivial hp
        | clear => exact absurd trivial hp
        | none => trivial
        | limit => trivial
        | disable => trivial
    · have ho : cfg.overwrite = false := by
        rcases hok with ho | ho
        · exact ho
        · exact absurd ho hfi
      have hu : upd fifo i (fifo i) = fifo := by
        funext k
        by_cases hk : k = i <;> simp [upd, hk]
      simp only [accept_locked i m hfi ho, hu, hfi, ho, Bool.false_eq_true, or_self, if_false]
      exact ⟨h1, h2⟩
  | isr =>
    simp only [step] at hs
    cases isr with
    | none => cases hs; exact ⟨h1, trivial⟩
    | limit => cases hs; exact ⟨h1, trivial⟩
    | loop i n =>
      simp only [IsrQ] at q2
      simp only [isrStep] at hs
      split_ifs at hs with hc hi <;> cases hs
      · refine ⟨h1, ?_⟩
        cases i
        · trivial
        · rcases h2 with h2 | h2
          · exact h2
          · omega
      · subst hi
        refine ⟨h1, ?_⟩
        simp only [IsrS] at h2 ⊢
        by_cases hn : n = 0
        · right; omega
        · left
          intro i
          cases i
          · exact h2.resolve_right hn
          · by_contra h0
            exact hc ⟨by omega, by omega⟩
      · refine ⟨h1, ?_⟩
        cases i
        · simp only [IsrS]
          by_cases hn : n = 0
          · exact .inr hn
          · left
            by_contra h0
            exact hc ⟨by omega, by omega⟩
        · exact absurd rfl hi
    | index b n => cases hs; exact ⟨h1, by cases b <;> trivial⟩
    | header b n g => cases hs; exact ⟨h1, by cases b <;> trivial⟩
    | data b n g h => cases hs; exact ⟨h1, by cases b <;> trivial⟩
    | ack b n g h d =>
      simp only [IsrF] at f2
      obtain ⟨h3, rfl, -, -⟩ := f2
      cases hs
      refine ⟨fun j hj => ?_, fun hb => ?_⟩
      · by_cases hjb : j = b
        · subst hjb
          exact h1 j (by omega)
        · simp only [upd, if_neg hjb] at hj; exact h1 j hj
      · dsimp only at hb
        subst hb
        exact h2
    | push n x =>
      obtain ⟨h5, h6⟩ := q2
      dsimp only at h6
      have hl : q.length < cfg.rxSize := by omega
      simp only [isrStep, hl, if_true] at hs
      cases hs
      obtain ⟨b, h, d⟩ := x
      exact ⟨h1, by cases b <;> first | trivial | exact .inl (h2 rfl)⟩
    | full =>
      cases hs
      refine ⟨h1, ?_⟩
      dsimp only
      split_ifs with hl
      · trivial
      · exact h2.resolve_right hl
    | disable => cases hs; exact ⟨h1, trivial⟩
    | clear => cases hs; exact ⟨fun i hi => absurd (h2 i) hi, trivial⟩

theorem reach_invS {cfg : Config} (h0 : 0 < cfg.rxSize) {ram : Fin 3 → α} {s : State α} {tr : List (Ev α)}
    (h : Reach cfg (Seen cfg) (init ram) s tr) : InvS cfg s := by
  have hok : ∀ (s : State α) a, Seen cfg s a → NoOverwrite cfg s a := by
    intro s a h
    cases a <;> first | trivial | exact h.1
  induction h with
  | start => exact ⟨fun i hi => absurd rfl hi, trivial⟩
  | step a hr ho hs ih => exact invS_step (reach_invQ h0 hr) (reach_flow h0 hok hr).1 ih ho hs

/-! ### What `isMessageAvailable` says -/

def Ready (s : State α) : Prop := match s.main with
  | .enable _ => True
  | _ => s.queue ≠ []

theorem announced_step {cfg : Config} {s s' : State α} {e : List (Ev α)} {a : Act α} {b : Bool} (h : b = true → Ready s)
    (hs : step cfg s a = some (s', e)) : announced b e = true → Ready s' := by
  obtain ⟨fifo, rf, ile, q, main, isr⟩ := s
  cases a with
  | call c =>
    simp only [step] at hs
    split at hs
    · cases hs
      cases c <;> exact h
    · cases hs; exact h
  | interrupt =>
    simp only [step] at hs
    split at hs <;> cases hs <;> exact h
  | restore =>
    simp only [step] at hs
    split at hs <;> cases hs <;> exact h
  | arrive i m =>
    cases hs
    intro hb
    apply h
    simp only [accept] at hb
    split_ifs at hb <;> exact hb
  | isr =>
    simp only [step] at hs
    cases isr with
    | loop i n =>
      simp only [isrStep] at hs
      split_ifs at hs <;> cases hs <;> exact h
    | push n x =>
      simp only [isrStep] at hs
      split_ifs at hs <;> cases hs
      · intro _
        cases main <;> simp [Ready]
      · exact h
    | none | limit | index | header | data | ack | full | disable | clear => cases hs; exact h
  | main =>
    simp only [step] at hs
    split at hs
    · cases main with
      | idle => cases hs; exact h
      | check =>
        simp only [mainStep] at hs
        split_ifs at hs with hq <;> cases hs
        · intro hb; cases hb
        · intro _; simpa [Ready] using hq
      | get =>
        cases q with
        | nil => cases hs
        | cons x q => cases hs; exact h
      | pop x => cases hs; exact fun _ => trivial
      | enable x => cases hs; intro hb; cases hb
      | available =>
        cases hs
        intro hb
        simpa [announced, Ready] using hb
    · cases hs; exact h

theorem reach_announced {cfg : Config} {ok : State α → Act α → Prop} {ram : Fin 3 → α} {s : State α} {tr : List (Ev α)}
    (h : Reach cfg ok (init ram) s tr) : announced false tr = true → Ready s := by
  induction h with
  | start => intro h; cases h
  | step a _ _ hs ih => rw [announced_append]; exact announced_step ih hs

end Modm.FdcanRx
