import Verif.Spec.Mcp2515
import Mathlib.Data.List.Count
import Mathlib.Data.Fintype.Basic
import Mathlib.Tactic.FinCases
import Mathlib.Tactic.SplitIfs

set_option autoImplicit false

/-! Property C156: the buffers of the MCP2515. -/

namespace Props.Mcp2515

open Spec.Mcp2515

variable {α : Type}

section
open Modm.Mcp2515.Rx

private theorem arrivals_append (a b : List (Ev α)) : arrivals (a ++ b) = arrivals a ++ arrivals b := by
  induction a with
  | nil => rfl
  | cons e a ih => cases e <;> simp [arrivals, ih]

private theorem losses_append (a b : List (Ev α)) : losses (a ++ b) = losses a ++ losses b := by
  induction a with
  | nil => rfl
  | cons e a ih => cases e <;> simp [losses, ih]

private theorem gots_append (a b : List (Ev α)) : gots (a ++ b) = gots a ++ gots b := by
  induction a with
  | nil => rfl
  | cons e a ih =>
    cases e with
    | got r => cases r <;> simp [gots, ih]
    | _ => simp [gots, ih]

private theorem status0 (b0 b1 : Option α) : (statusByte b0 b1 &&& 0x40#8 ≠ 0#8) ↔ b0.isSome = true := by
  cases b0 <;> cases b1 <;> simp [statusByte]

private theorem status1 (b0 b1 : Option α) : (statusByte b0 b1 &&& 0x80#8 ≠ 0#8) ↔ b1.isSome = true := by
  cases b0 <;> cases b1 <;> simp [statusByte]

/-- The buffer chosen is full until it is read. -/
private def Chosen (s : State α) : Prop :=
  match s.main with
  | .idle => True
  | .read false => s.b0.isSome = true
  | .read true => s.b1.isSome = true

private theorem step_defined (bukt : Bool) (s : State α) (h : Chosen s) (a : Act α) : ∃ s' e, step bukt s a = some (s', e) := by
  obtain ⟨b0, b1, main⟩ := s
  cases a with
  | arrive m first second => simp only [step]; split_ifs <;> exact ⟨_, _, rfl⟩
  | get =>
    cases main with
    | idle => simp only [step]; split_ifs <;> exact ⟨_, _, rfl⟩
    | read second => exact ⟨_, _, rfl⟩
  | main =>
    cases main with
    | idle => exact ⟨_, _, rfl⟩
    | read second =>
      cases second
      · cases b0 with
        | none => simp [Chosen] at h
        | some m => exact ⟨_, _, rfl⟩
      · cases b1 with
        | none => simp [Chosen] at h
        | some m => exact ⟨_, _, rfl⟩

private theorem step_chosen {bukt : Bool} {s s' : State α} {e : List (Ev α)} {a : Act α} (h : Chosen s) (hs : step bukt s a = some (s', e)) :
    Chosen s' := by
  obtain ⟨b0, b1, main⟩ := s
  cases a with
  | arrive m first second =>
    simp only [step] at hs
    cases main with
    | idle => split_ifs at hs <;> cases hs <;> trivial
    | read b => cases b <;> split_ifs at hs <;> cases hs <;> simp_all [Chosen]
  | get =>
    cases main with
    | idle =>
      simp only [step, status0, status1] at hs
      split_ifs at hs with h1 h2
      · cases hs; exact h1
      · cases hs; exact h2
      · cases hs; trivial
    | read b => cases hs; exact h
  | main =>
    cases main with
    | idle => cases hs; exact h
    | read second => cases second <;> cases b0 <;> cases b1 <;> simp [step] at hs <;> (try (obtain ⟨rfl, -⟩ := hs; trivial))

private theorem reach_chosen {bukt : Bool} {ok : State α → Act α → Prop} {s : State α} {tr : List (Ev α)} (h : Reach bukt ok s tr) : Chosen s := by
  induction h with
  | start => trivial
  | step a _ _ hs ih => exact step_chosen ih hs

/-- **C156** Every frame which passed the filters has been returned by `getMessage` exactly once, or is in a buffer, or is one of those
lost because there was no free buffer for them.  This is so in every interleaving of the commands of the driver with arriving frames. -/
theorem C156_receive_account {bukt : Bool} {s : State α} {tr : List (Ev α)} (h : Reach bukt (fun _ _ => True) s tr) :
    (arrivals tr).Perm (gots tr ++ held s ++ losses tr) ∧ ∀ a, ∃ s' e, step bukt s a = some (s', e) := by
  refine ⟨?_, step_defined bukt s (reach_chosen h)⟩
  classical
  rw [List.perm_iff_count]
  intro x
  induction h with
  | start => rfl
  | @step s s' tr e a hr _ hs ih =>
    obtain ⟨b0, b1, main⟩ := s
    simp only [arrivals_append, gots_append, losses_append, held, List.count_append] at ih ⊢
    cases a with
    | arrive m first second =>
      simp only [step] at hs
      cases b0 <;> cases b1 <;> split_ifs at hs <;> simp_all <;>
        (obtain ⟨rfl, rfl⟩ := hs; simp [arrivals, gots, losses, List.count_cons] at ih ⊢; try omega)
    | get =>
      cases main with
      | idle => simp only [step] at hs; split_ifs at hs <;> cases hs <;> simpa [arrivals, gots, losses] using ih
      | read b => cases hs; simpa [arrivals, gots, losses] using ih
    | main =>
      cases main with
      | idle => cases hs; simpa [arrivals, gots, losses] using ih
      | read second =>
        cases second <;> cases b0 <;> cases b1 <;> simp [step] at hs <;>
          (obtain ⟨rfl, rfl⟩ := hs; simp [arrivals, gots, losses, List.count_cons] at ih ⊢; omega)

/-- **C156** A frame for the first buffer is only lost if this buffer is full, and, if `BUKT` is set, also the second one. -/
theorem C156_receive_lost {bukt : Bool} {s s' : State α} {e : List (Ev α)} {m : α} {first second : Bool}
    (hs : step bukt s (.arrive m first second) = some (s', e)) (hl : losses e ≠ []) :
    (first = true → s.b0.isSome = true ∧ (bukt = true → s.b1.isSome = true)) ∧ (first = false → s.b1.isSome = true) := by
  obtain ⟨b0, b1, main⟩ := s
  cases first <;> cases second <;> cases b0 <;> cases b1 <;> cases bukt <;> simp [step] at hs <;> obtain ⟨rfl, rfl⟩ := hs <;>
    simp [losses] at hl ⊢

/-- **C156** (part) If all frames are for the first buffer, `BUKT` is set, and no frame arrives while the second buffer is full, then
no frame is lost and the messages are returned in the order of the frames.  Missing: frames arriving while the second
buffer is full, where this is false. -/
theorem C156_receive_order_partial {s : State α} {tr : List (Ev α)} (h : Reach true InTime s tr) :
    arrivals tr = gots tr ++ held s ∧ losses tr = [] := by
  suffices arrivals tr = gots tr ++ held s ∧ losses tr = [] ∧ (s.main = .read true → s.b0 = none ∧ s.b1 ≠ none) from ⟨this.1, this.2.1⟩
  induction h with
  | start => exact ⟨rfl, rfl, fun h => by cases h⟩
  | @step s s' tr e a hr hok hs ih =>
    obtain ⟨b0, b1, main⟩ := s
    obtain ⟨ih1, ih2, ih3⟩ := ih
    dsimp only at ih3
    simp only [arrivals_append, gots_append, losses_append, held, ih1, ih2]
    cases a with
    | arrive m first second =>
      obtain ⟨rfl, rfl⟩ := hok
      simp only [step, if_true] at hs
      cases b0 <;> simp at hs <;> obtain ⟨rfl, rfl⟩ := hs <;> simp [arrivals, gots, losses] <;> intro hm <;> simp [hm] at ih3
    | get =>
      cases main with
      | idle =>
        simp only [step, status0, status1] at hs
        split_ifs at hs with h1 h2
        · cases hs; simp [arrivals, gots, losses]
        · cases hs
          cases b0 <;> cases b1 <;> simp [arrivals, gots, losses] at h1 h2 ⊢
        · cases hs; simp [arrivals, gots, losses]
      | read b => cases hs; simp [arrivals, gots, losses]; intro hb; subst hb; simpa using ih3 rfl
    | main =>
      cases main with
      | idle => cases hs; simp [arrivals, gots, losses]
      | read second =>
        cases second
        · cases b0 <;> simp [step] at hs
          obtain ⟨rfl, rfl⟩ := hs
          simp [arrivals, gots, losses]
        · obtain ⟨h1, h2⟩ := ih3 rfl
          subst h1
          cases b1 <;> simp [step] at hs h2
          obtain ⟨rfl, rfl⟩ := hs
          simp [arrivals, gots, losses]

private theorem run_reach {bukt : Bool} (as : List (Act α)) {s s' : State α} {tr e : List (Ev α)} (h : Reach bukt (fun _ _ => True) s tr)
    (hr : run bukt s as = some (s', e)) : Reach bukt (fun _ _ => True) s' (tr ++ e) := by
  induction as generalizing s tr e with
  | nil => cases hr; simpa using h
  | cons a as ih =>
    simp only [run] at hr
    match hs : step bukt s a with
    | none => simp [hs] at hr
    | some (s1, e1) =>
      simp only [hs, Option.bind_eq_bind, Option.bind_some] at hr
      match hr' : run bukt s1 as with
      | none => simp [hr'] at hr
      | some (s2, e2) =>
        simp only [hr', Option.bind_some] at hr
        cases hr
        have := ih (Reach.step a h trivial hs) hr'
        simpa using this

example : ∃ s : State Nat, Reach true InTime s ([] ++ [.arrived 1] ++ [.arrived 2]) ∧ held s = [1, 2] :=
  ⟨⟨some 1, some 2, .idle⟩, .step (.arrive 2 true false) (.step (.arrive 1 true false) .start ⟨rfl, rfl⟩ rfl) ⟨rfl, rfl⟩ rfl, rfl⟩

/-- **C156** is false in general: with the first message still to be read from the second buffer, a new frame in the first
buffer is returned before it. -/
theorem C156_receive_order_counterexample :
    ∃ s : State Nat, ∃ tr, Reach true (fun _ _ => True) s tr ∧ arrivals tr = [1, 2, 3] ∧ losses tr = [] ∧ gots tr = [1, 3, 2] := by
  refine ⟨_, _, run_reach [.arrive 1 true false, .arrive 2 true false, .get, .main, .arrive 3 true false, .get, .main, .get, .main]
    .start rfl, ?_⟩
  decide

/-- **C156** Without `setFilter` the flag `BUKT` is not set, and the second frame is lost though the second buffer is empty. -/
theorem C156_receive_rollover_counterexample :
    ∃ s : State Nat, ∃ tr, Reach false (fun _ _ => True) s tr ∧ arrivals tr = [1, 2] ∧ losses tr = [2] ∧ s.b1 = none := by
  refine ⟨_, _, run_reach [.arrive 1 true true, .arrive 2 true true] .start rfl, ?_⟩
  decide

end

section
open Modm.Mcp2515.Tx

private theorem taken_append (a b : List (Ev α)) : taken (a ++ b) = taken a ++ taken b := by
  induction a with
  | nil => rfl
  | cons e a ih =>
    cases e with
    | sent m ok => cases ok <;> simp [taken, ih]
    | _ => simp [taken, ih]

private theorem wires_append (a b : List (Ev α)) : wires (a ++ b) = wires a ++ wires b := by
  induction a with
  | nil => rfl
  | cons e a ih => cases e <;> simp [wires, ih]

private theorem buffer_status (p : Fin 3 → Bool) :
    Modm.CanFrame.mcpBuffer (statusByte p) = if p 0 = false then some 0 else if p 1 = false then some 1 else if p 2 = false then some 2 else none := by
  unfold statusByte
  cases p 0 <;> cases p 1 <;> cases p 2 <;> decide

private theorem buffer_free {p : Fin 3 → Bool} {k : Fin 3} (h : Modm.CanFrame.mcpBuffer (statusByte p) = some k) : p k = false := by
  rw [buffer_status] at h
  split_ifs at h <;> simp_all

/-- Pending buffers hold a message; the buffer written is not pending. -/
private structure Inv (s : State α) : Prop where
  reg : ∀ k, s.pending k = true → s.reg k ≠ none
  write : ∀ m k, s.main = .write m k → s.pending k = false
  rts : ∀ m k, s.main = .rts m k → s.pending k = false ∧ s.reg k = some m

private theorem step_defined' (s : State α) (h : Inv s) (a : Act α) : ∃ s' e, step s a = some (s', e) := by
  obtain ⟨reg, p, main⟩ := s
  cases a with
  | send m => cases main <;> simp only [step] <;> (try split) <;> exact ⟨_, _, rfl⟩
  | ready => cases main <;> exact ⟨_, _, rfl⟩
  | main => cases main <;> exact ⟨_, _, rfl⟩
  | complete k =>
    simp only [step]
    split_ifs with hp
    · have := h.reg k hp
      dsimp only at this
      match hk : reg k with
      | none => exact absurd hk this
      | some m => exact ⟨_, _, rfl⟩
    · exact ⟨_, _, rfl⟩

private theorem step_inv {s s' : State α} {e : List (Ev α)} {a : Act α} (h : Inv s) (hs : step s a = some (s', e)) : Inv s' := by
  obtain ⟨reg, p, main⟩ := s
  obtain ⟨h1, h2, h3⟩ := h
  dsimp only at h1 h2 h3
  cases a with
  | send m =>
    cases main with
    | idle =>
      simp only [step] at hs
      split at hs
      · next k hk =>
        cases hs
        exact ⟨h1, fun m' k' hm => by cases hm; exact buffer_free hk, fun m' k' hm => by cases hm⟩
      · cases hs; exact ⟨h1, h2, h3⟩
    | write m' k => cases hs; exact ⟨h1, h2, h3⟩
    | rts m' k => cases hs; exact ⟨h1, h2, h3⟩
  | ready => cases main <;> cases hs <;> exact ⟨h1, h2, h3⟩
  | main =>
    cases main with
    | idle => cases hs; exact ⟨h1, h2, h3⟩
    | write m k =>
      cases hs
      refine ⟨fun j hj => ?_, fun m' k' hm => (nomatch hm), fun m' k' hm => by cases hm; exact ⟨h2 _ _ rfl, by simp [upd]⟩⟩
      by_cases hjk : j = k
      · simp [upd, hjk]
      · simpa [upd, hjk] using h1 j hj
    | rts m k =>
      cases hs
      refine ⟨fun j hj => ?_, fun m' k' hm => (nomatch hm), fun m' k' hm => by cases hm⟩
      by_cases hjk : j = k
      · subst hjk; simp [(h3 _ _ rfl).2]
      · exact h1 j (by simpa [upd, hjk] using hj)
  | complete k =>
    simp only [step] at hs
    split_ifs at hs with hp
    · split at hs
      · cases hs
        refine ⟨fun j hj => ?_, fun m' k' hm => ?_, fun m' k' hm => ?_⟩
        · by_cases hjk : j = k
          · simp [upd, hjk] at hj
          · exact h1 j (by simpa [upd, hjk] using hj)
        · by_cases hjk : k' = k
          · simp [upd, hjk]
          · simpa [upd, hjk] using h2 m' k' hm
        · refine ⟨?_, (h3 m' k' hm).2⟩
          by_cases hjk : k' = k
          · simp [upd, hjk]
          · simpa [upd, hjk] using (h3 m' k' hm).1
      · cases hs
    · cases hs; exact ⟨h1, h2, h3⟩

private theorem reach_inv {ok : State α → Act α → Prop} {s : State α} {tr : List (Ev α)} (h : Reach ok s tr) : Inv s := by
  induction h with
  | start => exact ⟨fun k hk => (nomatch hk), fun m k hm => (nomatch hm), fun m k hm => by cases hm⟩
  | step a _ _ hs ih => exact step_inv ih hs

/-- **C156** Every message for which `sendMessage` returned `true` has been on the bus exactly once or is pending, nothing else is ever
sent, in every interleaving of the commands of the driver with transmissions in any order. -/
theorem C156_send_account {s : State α} {tr : List (Ev α)} (h : Reach (fun _ _ => True) s tr) :
    (taken tr).Perm (wires tr ++ waiting s) ∧ ∀ a, ∃ s' e, step s a = some (s', e) := by
  refine ⟨?_, step_defined' s (reach_inv h)⟩
  classical
  rw [List.perm_iff_count]
  intro x
  induction h with
  | start => rfl
  | @step s s' tr e a hr _ hs ih =>
    have hi := reach_inv hr
    obtain ⟨reg, p, main⟩ := s
    simp only [taken_append, wires_append, waiting, List.flatMap_cons, List.flatMap_nil, List.count_append, List.append_nil] at ih ⊢
    cases a with
    | send m =>
      cases main with
      | idle => simp only [step] at hs; split at hs <;> cases hs <;> simpa [taken, wires] using ih
      | write m' k => cases hs; simpa [taken, wires] using ih
      | rts m' k => cases hs; simpa [taken, wires] using ih
    | ready => cases main <;> cases hs <;> simpa [taken, wires] using ih
    | main =>
      cases main with
      | idle => cases hs; simpa [taken, wires] using ih
      | write m k =>
        have hk := hi.write _ _ rfl
        cases hs
        fin_cases k <;> simp_all [upd, taken, wires]
      | rts m k =>
        have hk := hi.rts _ _ rfl
        cases hs
        fin_cases k <;> simp_all [upd, taken, wires, List.count_cons] <;> omega
    | complete k =>
      simp only [step] at hs
      split_ifs at hs with hp
      · split at hs
        · cases hs
          fin_cases k <;> simp_all [upd, taken, wires, List.count_cons] <;> omega
        · cases hs
      · cases hs; simpa [taken, wires] using ih

/-- **C156** `sendMessage` refuses a message exactly if all three buffers are pending when it reads the status, and `isReadyToSend` tells just that. -/
theorem C156_send_refused {s s' : State α} {e : List (Ev α)} {m : α} (hm : s.main = .idle) :
    (step s (.send m) = some (s', e) → (taken e = [] ∧ s'.main = .idle ↔ ∀ k, s.pending k = true)) ∧
    (step s .ready = some (s', e) → (e = [.ready false] ↔ ∀ k, s.pending k = true)) := by
  obtain ⟨reg, p, main⟩ := s
  dsimp only at hm
  subst hm
  have hall : (∀ k, p k = true) ↔ p 0 = true ∧ p 1 = true ∧ p 2 = true :=
    ⟨fun h => ⟨h 0, h 1, h 2⟩, fun ⟨h0, h1, h2⟩ k => by fin_cases k <;> assumption⟩
  rw [hall]
  constructor
  · intro hs
    simp only [step, buffer_status] at hs
    cases h0 : p 0 <;> cases h1 : p 1 <;> cases h2 : p 2 <;> simp [h0, h1, h2] at hs <;> obtain ⟨rfl, rfl⟩ := hs <;> simp [taken]
  · intro hs
    simp only [step] at hs
    cases hs
    simp only [statusByte]
    cases h0 : p 0 <;> cases h1 : p 1 <;> cases h2 : p 2 <;> simp

/-- **C156** (part) If `sendMessage` is only called while nothing is pending, the frames are sent in the order of the calls.  Missing: several
pending messages, where this is false. -/
theorem C156_send_order_partial {s : State α} {tr : List (Ev α)} (h : Reach OneAtATime s tr) : taken tr = wires tr ++ waiting s := by
  suffices taken tr = wires tr ++ waiting s ∧ (s.main ≠ .idle → s.pending = fun _ => false) ∧
      ∃ k, ∀ j, j ≠ k → s.pending j = false from this.1
  induction h with
  | start => exact ⟨rfl, fun h => absurd rfl h, 0, fun _ _ => rfl⟩
  | @step s s' tr e a hr hok hs ih =>
    have hi := reach_inv hr
    obtain ⟨reg, p, main⟩ := s
    obtain ⟨ih1, ih2, k0, ih3⟩ := ih
    dsimp only at ih2 ih3
    rw [taken_append, wires_append, ih1]
    cases a with
    | send m =>
      have hp : p = fun _ => false := hok
      cases main with
      | idle =>
        simp only [step] at hs
        split at hs
        · cases hs; exact ⟨by simp [taken, wires, waiting], fun _ => hp, k0, ih3⟩
        · next hn => rw [buffer_status, hp] at hn; simp at hn
      | write m' k => cases hs; exact ⟨by simp [taken, wires, waiting], ih2, k0, ih3⟩
      | rts m' k => cases hs; exact ⟨by simp [taken, wires, waiting], ih2, k0, ih3⟩
    | ready => cases main <;> cases hs <;> exact ⟨by simp [taken, wires, waiting], ih2, k0, ih3⟩
    | main =>
      cases main with
      | idle => cases hs; exact ⟨by simp [taken, wires, waiting], ih2, k0, ih3⟩
      | write m k =>
        have hp := ih2 (by simp)
        cases hs
        exact ⟨by simp [taken, wires, waiting, hp], fun _ => hp, k0, ih3⟩
      | rts m k =>
        have hp := ih2 (by simp)
        have hk := (hi.rts _ _ rfl).2
        cases hs
        dsimp only at hk
        refine ⟨?_, fun h => absurd rfl h, k, fun j hj => by simp [upd, hj, hp]⟩
        fin_cases k <;> simp_all [upd, taken, wires, waiting]
    | complete k =>
      simp only [step] at hs
      split_ifs at hs with hp
      · split at hs
        · next m hm =>
          cases hs
          have hkk : k = k0 := by
            by_contra hne
            rw [ih3 k hne] at hp
            cases hp
          subst hkk
          have hnone : upd p k false = fun _ => false := by
            funext j
            by_cases hj : j = k
            · simp [upd, hj]
            · simp [upd, hj, ih3 j hj]
          refine ⟨?_, fun _ => hnone, k, fun j _ => by rw [hnone]⟩
          have h0 := ih3 0; have h1 := ih3 1; have h2 := ih3 2
          simp only [hnone, waiting]
          fin_cases k <;> simp_all [taken, wires]
        · cases hs
      · cases hs; exact ⟨by simp [taken, wires, waiting], ih2, k0, ih3⟩

private theorem run_reach' {ok : State α → Act α → Prop} {s s1 s2 s3 s4 s5 s6 s7 s8 : State α} {tr e1 e2 e3 e4 e5 e6 e7 e8 : List (Ev α)}
    {a1 a2 a3 a4 a5 a6 a7 a8 : Act α} (h : Reach ok s tr)
    (h1 : ok s a1 ∧ step s a1 = some (s1, e1)) (h2 : ok s1 a2 ∧ step s1 a2 = some (s2, e2)) (h3 : ok s2 a3 ∧ step s2 a3 = some (s3, e3))
    (h4 : ok s3 a4 ∧ step s3 a4 = some (s4, e4)) (h5 : ok s4 a5 ∧ step s4 a5 = some (s5, e5)) (h6 : ok s5 a6 ∧ step s5 a6 = some (s6, e6))
    (h7 : ok s6 a7 ∧ step s6 a7 = some (s7, e7)) (h8 : ok s7 a8 ∧ step s7 a8 = some (s8, e8)) :
    Reach ok s8 (tr ++ e1 ++ e2 ++ e3 ++ e4 ++ e5 ++ e6 ++ e7 ++ e8) :=
  .step _ (.step _ (.step _ (.step _ (.step _ (.step _ (.step _ (.step _ h h1.1 h1.2) h2.1 h2.2) h3.1 h3.2) h4.1 h4.2) h5.1 h5.2) h6.1 h6.2)
    h7.1 h7.2) h8.1 h8.2

example : ∃ s : State Nat, ∃ tr, Reach OneAtATime s tr ∧ wires tr = [1, 2] := by
  refine ⟨_, _, run_reach' (a1 := .send 1) (a2 := .main) (a3 := .main) (a4 := .complete 0) (a5 := .send 2) (a6 := .main) (a7 := .main)
    (a8 := .complete 0) .start ⟨rfl, rfl⟩ ⟨trivial, rfl⟩ ⟨trivial, rfl⟩ ⟨trivial, rfl⟩ ⟨?_, rfl⟩ ⟨trivial, rfl⟩ ⟨trivial, rfl⟩
    ⟨trivial, rfl⟩, rfl⟩
  funext k; fin_cases k <;> rfl

/-- **C156** is false in general: of two messages which wait for the bus, the chip sends the one passed to `sendMessage` last first. -/
theorem C156_send_order_counterexample :
    ∃ s : State Nat, ∃ tr, Reach Priority s tr ∧ taken tr = [1, 2] ∧ wires tr = [2, 1] := by
  refine ⟨_, _, run_reach' (a1 := .send 1) (a2 := .main) (a3 := .main) (a4 := .send 2) (a5 := .main) (a6 := .main) (a7 := .complete 1)
    (a8 := .complete 0) .start ⟨trivial, rfl⟩ ⟨trivial, rfl⟩ ⟨trivial, rfl⟩ ⟨trivial, rfl⟩ ⟨trivial, rfl⟩ ⟨trivial, rfl⟩
    ⟨?_, rfl⟩ ⟨?_, rfl⟩, rfl, rfl⟩
  · intro j hj; fin_cases j <;> simp [upd, init] at hj ⊢
  · intro j hj; fin_cases j <;> simp [upd, init] at hj ⊢

end

end Props.Mcp2515
