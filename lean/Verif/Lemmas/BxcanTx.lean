import Verif.Spec.BxcanTx
import Verif.Lemmas.Uart
import Mathlib.Tactic.SplitIfs

set_option autoImplicit false

namespace Modm.BxcanTx

open Modm.AtomicQueue (Q next Rep head_le full_iff empty_iff size_eq rep_init rep_push rep_pop rep_get)
open Modm.Uart (rep_store rep_publish isEmpty_iff)
open Spec.BxcanTx

variable {α : Type}

/-! ### Events -/

theorem taken_append (a b : List (Ev α)) : taken (a ++ b) = taken a ++ taken b := by
  induction a with
  | nil => rfl
  | cons e a ih =>
    cases e with
    | sent m ok => cases ok <;> simp [taken, ih]
    | _ => simp [taken, ih]

theorem offered_append (a b : List (Ev α)) : offered (a ++ b) = offered a ++ offered b := by
  induction a with
  | nil => rfl
  | cons e a ih =>
    cases e with
    | called c => cases c <;> simp [offered, ih]
    | _ => simp [offered, ih]

theorem announced_append (a b : List (Ev α)) (x : Bool) : announced x (a ++ b) = announced (announced x a) b := by
  induction a generalizing x with
  | nil => rfl
  | cons e a ih => cases e <;> simp [announced, ih]

theorem Reach.mono {cfg : Config} {p q : State α → Act α → Prop} {s0 s : State α} {tr : List (Ev α)} (hpq : ∀ s a, p s a → q s a)
    (h : Reach cfg p s0 s tr) : Reach cfg q s0 s tr := by
  induction h with
  | start => exact .start
  | step a _ ha hs ih => exact .step a ih (hpq _ _ ha) hs

/-! ### Mailboxes -/

/-- The frame in a mailbox. -/
def content (h : Hw α) (k : Nat) : α × α := (h.hdr k, h.dat k)

/-- The mailbox is free. -/
def Free (h : Hw α) (k : Nat) : Prop := k < 3 ∧ k ∉ h.boxes

theorem anyEmpty_iff (h : Hw α) : anyEmpty h = true ↔ ∃ k, Free h k := by
  simp only [anyEmpty, Bool.or_eq_true, Bool.not_eq_true', List.contains_eq_mem, decide_eq_false_iff_not, Free]
  constructor
  · rintro ((h | h) | h)
    · exact ⟨0, by omega, h⟩
    · exact ⟨1, by omega, h⟩
    · exact ⟨2, by omega, h⟩
  · rintro ⟨k, hk, h⟩
    match k, hk, h with
    | 0, _, h => exact .inl (.inl h)
    | 1, _, h => exact .inl (.inr h)
    | 2, _, h => exact .inr h

theorem line_iff (h : Hw α) : line h = true ↔ ∃ k, k < 3 ∧ h.rqcp k = true := by
  simp only [line, Bool.or_eq_true]
  constructor
  · rintro ((h | h) | h)
    · exact ⟨0, by omega, h⟩
    · exact ⟨1, by omega, h⟩
    · exact ⟨2, by omega, h⟩
  · rintro ⟨k, hk, h⟩
    match k, hk, h with
    | 0, _, h => exact .inl (.inl h)
    | 1, _, h => exact .inl (.inr h)
    | 2, _, h => exact .inr h

theorem code_free {cfg : Config} (hc : CodeOk cfg) {h : Hw α} (hf : ∃ k, Free h k) : Free h (cfg.code h.boxes) :=
  ⟨(hc _).1, (hc _).2 hf⟩

theorem writeHeader_free {h : Hw α} {k : Nat} (hf : k ∉ h.boxes) (m : α) : writeHeader h k m = { h with hdr := upd h.hdr k m } := by
  simp [writeHeader, hf]

theorem writeData_free {h : Hw α} {k : Nat} (hf : k ∉ h.boxes) (m : α) : writeData h k m = { h with dat := upd h.dat k m } := by
  simp [writeData, hf]

theorem request_free {h : Hw α} {k : Nat} (hf : k ∉ h.boxes) :
    request h k = { h with boxes := h.boxes ++ [k], rqcp := upd h.rqcp k false } := by
  simp [request, hf]

theorem upd_same {β : Type} (f : Nat → β) (k : Nat) (v : β) : upd f k v k = v := by simp [upd]
theorem upd_ne {β : Type} (f : Nat → β) {k j : Nat} (v : β) (h : j ≠ k) : upd f k v j = f j := by simp [upd, h]

theorem map_hdr {h : Hw α} {k : Nat} (hf : k ∉ h.boxes) (m : α) :
    h.boxes.map (content { h with hdr := upd h.hdr k m }) = h.boxes.map (content h) := by
  apply List.map_congr_left
  intro j hj
  have : j ≠ k := fun e => hf (e ▸ hj)
  simp [content, upd_ne, this]

theorem map_dat {h : Hw α} {k : Nat} (hf : k ∉ h.boxes) (m : α) :
    h.boxes.map (content { h with dat := upd h.dat k m }) = h.boxes.map (content h) := by
  apply List.map_congr_left
  intro j hj
  have : j ≠ k := fun e => hf (e ▸ hj)
  simp [content, upd_ne, this]

/-! ### The queue, for every interleaving -/

def IsrQ (s : State α) (l : List α) : Prop :=
  match s.isr with
  | .header _ | .data _ | .request _ | .pop => l ≠ []
  | _ => True

def MainQ (cfg : Config) (s : State α) (l : List α) : Prop :=
  match s.main with
  | .store _ => l.length < cfg.txSize
  | .publish m => l.length < cfg.txSize ∧ s.q.buf[s.q.head]? = some m
  | .full _ => cfg.txSize ≠ 0
  | _ => True

structure QInv (cfg : Config) (s : State α) (l : List α) : Prop where
  rep : Rep cfg.txSize s.q l
  isr : IsrQ s l
  main : MainQ cfg s l
  off : cfg.txSize = 0 → s.isr = .none

/-- The queue after a step: the same, one message more, or one less. -/
def nextQ (s : State α) (l : List α) : Act α → List α
  | .main => match s.isr, s.main with
    | .none, .publish m => l ++ [m]
    | _, _ => l
  | .isr => match s.isr with
    | .pop => l.tail
    | _ => l
  | _ => l

theorem step_defined {cfg : Config} {s : State α} {l : List α} (h : QInv cfg s l) (a : Act α) : ∃ s' e, step cfg s a = some (s', e) := by
  obtain ⟨hw, q, mn, isr⟩ := s
  obtain ⟨hr, hi, hm, ho⟩ := h
  cases a with
  | call c => cases mn <;> cases isr <;> exact ⟨_, _, rfl⟩
  | complete => cases hb : hw.boxes <;> simp [step, hb]
  | interrupt => cases isr <;> simp only [step] <;> first | exact ⟨_, _, rfl⟩ | (split <;> exact ⟨_, _, rfl⟩)
  | isr =>
    cases isr with
    | check k => simp only [step, isrStep]; split <;> exact ⟨_, _, rfl⟩
    | header k =>
      obtain ⟨m, t, rfl⟩ := List.exists_cons_of_ne_nil hi
      simp only [step, isrStep, rep_get hr]; exact ⟨_, _, rfl⟩
    | data k =>
      obtain ⟨m, t, rfl⟩ := List.exists_cons_of_ne_nil hi
      simp only [step, isrStep, rep_get hr]; exact ⟨_, _, rfl⟩
    | _ => exact ⟨_, _, rfl⟩
  | main =>
    cases isr with
    | none =>
      cases mn with
      | store m =>
        obtain ⟨h1, -, -⟩ := rep_store hr hm m
        simp only [step, mainStep]; rw [if_pos h1]; exact ⟨_, _, rfl⟩
      | tsr m => simp only [step, mainStep]; split_ifs <;> exact ⟨_, _, rfl⟩
      | full m => simp only [step, mainStep]; split_ifs <;> exact ⟨_, _, rfl⟩
      | ready => simp only [step, mainStep]; split_ifs <;> exact ⟨_, _, rfl⟩
      | _ => exact ⟨_, _, rfl⟩
    | _ => exact ⟨_, _, rfl⟩

theorem step_q {cfg : Config} {s s' : State α} {l : List α} {e : List (Ev α)} (h : QInv cfg s l) {a : Act α} (hs : step cfg s a = some (s', e)) :
    QInv cfg s' (nextQ s l a) := by
  obtain ⟨hw, q, mn, isr⟩ := s
  obtain ⟨hr, hi, hm, ho⟩ := h
  cases a with
  | call c =>
    cases mn <;> cases isr <;> cases c <;> cases hs <;> exact ⟨hr, hi, hm, ho⟩
  | complete =>
    cases hb : hw.boxes <;> simp only [step, hb] at hs <;> cases hs <;> exact ⟨hr, hi, hm, ho⟩
  | interrupt =>
    cases isr with
    | none =>
      simp only [step] at hs
      split_ifs at hs with hc <;> cases hs
      · exact ⟨hr, trivial, hm, fun h => absurd h hc.1⟩
      · exact ⟨hr, hi, hm, ho⟩
    | _ => cases hs; exact ⟨hr, hi, hm, ho⟩
  | isr =>
    have hn : ∀ {p : Prop}, isr ≠ .none → cfg.txSize = 0 → p := fun h h0 => absurd (ho h0) h
    cases isr with
    | none => cases hs; exact ⟨hr, hi, hm, ho⟩
    | tsr => cases hs; exact ⟨hr, trivial, hm, hn (by simp)⟩
    | clear k => cases hs; exact ⟨hr, trivial, hm, hn (by simp)⟩
    | check k =>
      simp only [step, isrStep] at hs
      split_ifs at hs with he <;> cases hs
      · exact ⟨hr, trivial, hm, fun _ => rfl⟩
      · exact ⟨hr, fun h0 => he ((isEmpty_iff hr).2 h0), hm, hn (by simp)⟩
    | header k =>
      obtain ⟨m, t, rfl⟩ := List.exists_cons_of_ne_nil hi
      simp only [step, isrStep, rep_get hr] at hs
      cases hs
      exact ⟨hr, hi, hm, hn (by simp)⟩
    | data k =>
      obtain ⟨m, t, rfl⟩ := List.exists_cons_of_ne_nil hi
      simp only [step, isrStep, rep_get hr] at hs
      cases hs
      exact ⟨hr, hi, hm, hn (by simp)⟩
    | request k => cases hs; exact ⟨hr, hi, hm, hn (by simp)⟩
    | pop =>
      obtain ⟨m, t, rfl⟩ := List.exists_cons_of_ne_nil hi
      cases hs
      refine ⟨rep_pop hr, trivial, ?_, fun _ => rfl⟩
      cases mn <;> simp [MainQ, leave, AtomicQueue.pop, nextQ] at hm ⊢ <;> first | omega | exact hm | exact ⟨by omega, hm.2⟩
  | main =>
    cases isr with
    | none =>
      cases mn with
      | tsr m =>
        simp only [step, mainStep] at hs
        split_ifs at hs with h1 h2 <;> cases hs
        · exact ⟨hr, hi, trivial, ho⟩
        · exact ⟨hr, hi, trivial, ho⟩
        · exact ⟨hr, hi, h2, ho⟩
      | full m =>
        simp only [step, mainStep] at hs
        split_ifs at hs with h1 <;> cases hs
        · exact ⟨hr, hi, trivial, ho⟩
        · refine ⟨hr, hi, ?_, ho⟩
          have h2 : l.length ≠ cfg.txSize := fun e => h1 ((full_iff hr).2 e)
          have := hr.sz
          show l.length < cfg.txSize
          omega
      | store m =>
        obtain ⟨h1, h2, h3⟩ := rep_store hr hm m
        simp only [step, mainStep] at hs
        rw [if_pos h1] at hs
        cases hs
        exact ⟨h2, hi, ⟨hm, h3⟩, ho⟩
      | publish m => cases hs; exact ⟨rep_publish hr hm.1 hm.2, hi, trivial, ho⟩
      | ready =>
        simp only [step, mainStep] at hs
        split_ifs at hs with h1 <;> cases hs <;> exact ⟨hr, hi, trivial, ho⟩
      | _ => cases hs; exact ⟨hr, hi, trivial, ho⟩
    | _ => cases hs; exact ⟨hr, hi, hm, ho⟩

theorem q_init {cfg : Config} {mem : List α} (hf : Fits cfg mem) (x : α) : QInv cfg (init x mem) [] :=
  ⟨rep_init mem hf.size hf.mem, trivial, trivial, fun _ => rfl⟩

theorem reach_q {cfg : Config} {mem : List α} (hf : Fits cfg mem) {x : α} {ok : State α → Act α → Prop} {s : State α} {tr : List (Ev α)}
    (h : Reach cfg ok (init x mem) s tr) : ∃ l, QInv cfg s l := by
  induction h with
  | start => exact ⟨_, q_init hf x⟩
  | step a _ _ hs ih => obtain ⟨l, hl⟩ := ih; exact ⟨_, step_q hl hs⟩

end Modm.BxcanTx
