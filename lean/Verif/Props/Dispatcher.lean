import Verif.Lemmas.Dispatcher
import Mathlib.Algebra.BigOperators.Group.Multiset.Basic

set_option autoImplicit false

/-!
# C122–C129: the dispatcher of the cross platform component communication

What the components and the network observe, for arbitrary components and arbitrary packets from the
network.
-/

namespace Props.Dispatcher

open Modm.Dispatcher
open Modm.Spec.Dispatcher

variable {σ : Type} {a : App σ} {cfg : Config} {fuel : ℕ} {x : σ} {steps : List Step} {s : State σ}

/-! ## A case

Components 1 and 2 are on this board.  Component 2 echoes the argument of its action 7 and calls action 9 of component 4 on
event 6.  Action 50 is refused. -/

def demo : App Unit where
  deliver _ h p := ((), h.packet != 50,
    if h.destination = 2 ∧ h.packet = 7 then [.sendResponse 2 h.source 7 p]
    else if h.destination = 0 ∧ h.packet = 6 then [.callAction 2 4 9 p none] else [])
  available b := b == 1 || b == 2
  callback _ _ _ _ := ((), [])

def demoSteps : List Step := [.command (.callAction 1 2 7 [5] (some 9)), .command (.callAction 1 3 8 [] (some 4)),
  .command (.publishEvent 1 6 [1]), .update 0 [], .update 10 [(⟨.request, true, 1, 3, 8⟩, []), (⟨.request, false, 0, 3, 11⟩, [8])],
  .update 20 [(⟨.response, false, 1, 3, 8⟩, [42]), (⟨.response, false, 1, 3, 8⟩, [42])],
  .update 120 [(⟨.request, false, 2, 3, 7⟩, [3])], .update 130 [(⟨.request, false, 2, 3, 7⟩, [3]), (⟨.request, false, 1, 3, 50⟩, [])],
  .update 240 []]

def demoState : State Unit := (run demo ⟨100, 200⟩ 20 (init ()) demoSteps).getD (init ())

theorem demo_run : run demo ⟨100, 200⟩ 20 (init ()) demoSteps = some demoState := by decide +kernel

def demoLast : State Unit := (update demo ⟨100, 200⟩ 300 20 [] demoState).getD (init ())

theorem demo_last : update demo ⟨100, 200⟩ 300 20 [] demoState = some demoLast := by decide +kernel

private theorem all_received {log : List Obs} {f : Header → Payload → Bool}
    (h : (log.all fun o => match o with | .received h p => f h p | _ => true) = true) :
    ∀ h p, .received h p ∈ log → f h p = true := by
  intro h' p hm
  exact List.all_eq_true.mp h _ hm

/-! ## Counting -/

private theorem results_append (k : ℕ) (l m : List Obs) : results k (l ++ m) = results k l + results k m := by
  simp [results]

private theorem calls_append (k : ℕ) (l m : List Obs) : calls k (l ++ m) = calls k l + calls k m := by
  simp [calls]

private theorem results_issues (k : ℕ) (cs : List Command) : results k (issues cs) = 0 := by
  simp [results, issues]

private theorem calls_issues (k : ℕ) (cs : List Command) :
    calls k (issues cs) = (news cs).countP (fun e => e.callback = some k) := by
  simp only [calls, issues, news, Multiset.coe_countP, List.countP_map]
  rfl

private theorem results_ite (k : ℕ) (c : Prop) [Decidable c] (t : ℕ) (h : Header) (p : Payload) :
    results k (if c then [.sent t h p] else []) = 0 := by
  split <;> rfl

private theorem calls_ite (k : ℕ) (c : Prop) [Decidable c] (t : ℕ) (h : Header) (p : Payload) :
    calls k (if c then [.sent t h p] else []) = 0 := by
  split <;> rfl

private theorem reach_results {R : ℕ → ℕ → Prop} {t : ℕ} {b : Multiset Entry} {log : List Obs} (k : ℕ)
    (h : Reach a cfg R t b log) : results k log + b.countP (fun e => e.callback = some k) ≤ calls k log := by
  induction h with
  | init => simp [results]
  | issue c h ih =>
    have h1 := calls_issues k [c]
    have h2 := results_issues k [c]
    simp only [issues, news, List.map_cons, List.map_nil] at h1 h2
    simp only [results_append, calls_append, Multiset.countP_add]
    rw [h1, h2]
    simp only [Multiset.coe_singleton]
    omega
  | move h ht m ih =>
    cases m <;>
      (try simp only [results_append, calls_append, Multiset.countP_add, Multiset.countP_cons, results_issues,
        calls_issues, results_ite, calls_ite] at ih ⊢) <;>
      simp_all [results, calls] <;> (try omega)

/-- **C123.**  A callback is called at most as often as an action is called with it. -/
theorem C123_at_most_once (h : run a cfg fuel (init x) steps = some s) (k : ℕ) : results k s.log ≤ calls k s.log := by
  obtain ⟨t, ht⟩ := run_init_reach h
  have := reach_results k ht
  omega

example : results 4 demoState.log = 1 ∧ calls 4 demoState.log = 1 ∧ results 4 demoState.log ≤ calls 4 demoState.log :=
  ⟨by decide +kernel, by decide +kernel, C123_at_most_once demo_run 4⟩

/-- A condition on every entry of the log and what precedes it. -/
private def genuine (l : List Obs) : Obs → Prop
  | .called k h p => ∃ own receiver action q, .issued (.callAction own receiver action q (some k)) ∈ l ∧
      ((h = ⟨.timeout, false, receiver, own, action⟩ ∧ p = q) ∨
        (answers h ⟨.request, false, receiver, own, action⟩ ∧ h.kind ≠ .request ∧ h.ack = false ∧
          (.received h p ∈ l ∨ ∃ c, .issued c ∈ l ∧ message c = (h, p))))
  | .sent _ h p => h.ack = false → ∃ c, .issued c ∈ l ∧ message c = (h, p)
  | .delivered h p => h.ack = false ∧ (.received h p ∈ l ∨ ∃ c, .issued c ∈ l ∧ message c = (h, p))
  | _ => True

private theorem genuine_ite {l : List Obs} {c : Prop} [Decidable c] {t : ℕ} {h : Header} (hl : Earlier genuine l) :
    Earlier genuine (l ++ if c then [.sent t (ackOf h) []] else []) := by
  split
  · exact earlier_append_singleton hl (by simp [genuine, ackOf])
  · simpa using hl

private theorem genuine_issues {l : List Obs} (cs : List Command) (hl : Earlier genuine l) :
    Earlier genuine (l ++ issues cs) :=
  earlier_append_issues (fun _ _ => trivial) cs hl

private theorem fits_answers {e : Entry} {h : Header} (hf : e.headerFits h = true) : answers h e.header := by
  simp only [Entry.headerFits, Bool.and_eq_true, beq_iff_eq] at hf
  exact ⟨hf.1.1, hf.1.2, hf.2⟩

private theorem reach_genuine {R : ℕ → ℕ → Prop} {t : ℕ} {b : Multiset Entry} {log : List Obs}
    (h : Reach a cfg R t b log) : Earlier genuine log := by
  induction h with
  | init => exact earlier_nil _
  | issue c h ih => exact earlier_append_singleton ih trivial
  | @move t now b log b' log' h ht m ih =>
    have horig := h.origin
    have hack := h.not_ack
    -- what is known of the entries
    have hsent : ∀ e ∈ b, ∀ l t, genuine (log ++ l) (.sent t e.header e.payload) := by
      intro e he l t _
      obtain ⟨⟨c, h1, h2, -⟩, -⟩ := horig e he
      exact ⟨c, List.mem_append_left _ h1, h2⟩
    have hcall : ∀ e ∈ b, ∀ k, e.callback = some k → ∃ own receiver action, e.header = ⟨.request, false, receiver, own, action⟩ ∧
        ∀ l, .issued (.callAction own receiver action e.payload (some k)) ∈ log ++ l := by
      intro e he k hk
      obtain ⟨⟨c, h1, h2, h3⟩, -⟩ := horig e he
      obtain ⟨own, receiver, action, p, rfl⟩ := callbackOf_some (h3.trans hk)
      simp only [message, Prod.mk.injEq] at h2
      obtain ⟨h2, rfl⟩ := h2
      exact ⟨own, receiver, action, h2.symm, fun l => List.mem_append_left _ h1⟩
    have hs0 : ∀ e ∈ b, ∀ t, genuine log (.sent t e.header e.payload) := fun e he t => by
      simpa using hsent e he [] t
    cases m with
    | rxRequest ok hk ha happ =>
      rename_i h' p' cs
      have h1 : Earlier genuine (log ++ [.received h' p']) := earlier_append_singleton ih trivial
      have h2 : Earlier genuine (log ++ [.received h' p'] ++ [.delivered h' p']) :=
        earlier_append_singleton h1 ⟨ha, Or.inl (by simp)⟩
      have h3 := genuine_ite (c := ok = true ∧ h'.destination ≠ 0) (t := now) (h := h') (genuine_issues cs h2)
      simpa using h3
    | rxNone hr hn =>
      rename_i h' p'
      have h1 : Earlier genuine (log ++ [.received h' p']) := earlier_append_singleton ih trivial
      have h3 := genuine_ite (c := h'.ack = false ∧ h'.destination ≠ 0 ∧ a.available h'.destination = true)
        (t := now) (h := h') h1
      simpa using h3
    | rxDefault e hr hf hc =>
      rename_i h' p'
      have h1 : Earlier genuine (log ++ [.received h' p']) := earlier_append_singleton ih trivial
      have h3 := genuine_ite (c := h'.ack = false ∧ h'.destination ≠ 0 ∧ a.available h'.destination = true)
        (t := now) (h := h') h1
      simpa using h3
    | rxAck e k hk ha hf hc => exact earlier_append_singleton ih trivial
    | rxAckResponse e k hk ha hf hc => exact earlier_append_singleton ih trivial
    | rxResponse e k hk ha hf hc =>
      rename_i b h' p' cs
      have h1 : Earlier genuine (log ++ [.received h' p']) := earlier_append_singleton ih trivial
      have h2 : Earlier genuine (log ++ [.received h' p'] ++ [.called k h' p']) := by
        refine earlier_append_singleton h1 ?_
        obtain ⟨own, receiver, action, g1, g2⟩ := hcall e (Multiset.mem_cons_self _ _) k hc
        refine ⟨own, receiver, action, e.payload, g2 _, Or.inr ⟨?_, hk, ha, Or.inl (by simp)⟩⟩
        rw [← g1]; exact fits_answers hf
      have h3 := genuine_ite (c := h'.destination ≠ 0) (t := now) (h := h') (genuine_issues cs h2)
      simpa using h3
    | event e hp hd =>
      rename_i b cs
      have h2 : Earlier genuine (log ++ [.delivered e.header e.payload]) := by
        refine earlier_append_singleton ih ⟨hack e (Multiset.mem_cons_self _ _), Or.inr ?_⟩
        exact hs0 e (Multiset.mem_cons_self _ _) 0 (hack e (Multiset.mem_cons_self _ _))
      have h3 := earlier_append_singleton (genuine_issues cs h2) (o := .sent now e.header e.payload)
        (by rw [List.append_assoc]; exact hsent e (Multiset.mem_cons_self _ _) _ _)
      simpa using h3
    | innerCall e k hp hd hv hk hc =>
      rename_i b cs
      have h1 := earlier_append_singleton ih (hs0 e (Multiset.mem_cons_self _ _) now)
      have h2 : Earlier genuine (log ++ [.sent now e.header e.payload] ++ [.delivered e.header e.payload]) :=
        earlier_append_singleton h1 ⟨hack e (Multiset.mem_cons_self _ _),
          Or.inr (hsent e (Multiset.mem_cons_self _ _) _ 0 (hack e (Multiset.mem_cons_self _ _)))⟩
      simpa using genuine_issues cs h2
    | innerDefault e hp hd hv hk hc =>
      rename_i b cs
      have h1 := earlier_append_singleton ih (hs0 e (Multiset.mem_cons_self _ _) now)
      have h2 : Earlier genuine (log ++ [.sent now e.header e.payload] ++ [.delivered e.header e.payload]) :=
        earlier_append_singleton h1 ⟨hack e (Multiset.mem_cons_self _ _),
          Or.inr (hsent e (Multiset.mem_cons_self _ _) _ 0 (hack e (Multiset.mem_cons_self _ _)))⟩
      simpa using genuine_issues cs h2
    | innerAnswer e q k hp hd hv hk hq hc =>
      rename_i b cs
      have h1 := earlier_append_singleton ih (hs0 e (Multiset.mem_cons_self _ _) now)
      have hqm : q ∈ e ::ₘ q ::ₘ b := Multiset.mem_cons_of_mem (Multiset.mem_cons_self _ _)
      have h2 : Earlier genuine (log ++ [.sent now e.header e.payload] ++ [.called k e.header e.payload]) := by
        refine earlier_append_singleton h1 ?_
        obtain ⟨own, receiver, action, g1, g2⟩ := hcall q hqm k hc
        simp only [Entry.isWaitingFor, Bool.and_eq_true] at hq
        refine ⟨own, receiver, action, q.payload, g2 _, Or.inr ⟨?_, hk, hack e (Multiset.mem_cons_self _ _), Or.inr ?_⟩⟩
        · rw [← g1]; exact fits_answers hq.2
        · exact hsent e (Multiset.mem_cons_self _ _) _ 0 (hack e (Multiset.mem_cons_self _ _))
      simpa using genuine_issues cs h2
    | innerDrop e q hp hd hv hk hq hc => exact earlier_append_singleton ih (hs0 e (Multiset.mem_cons_self _ _) now)
    | innerNone e hp hd hv hk => exact earlier_append_singleton ih (hs0 e (Multiset.mem_cons_self _ _) now)
    | transmit e hp hd hv => exact earlier_append_singleton ih (hs0 e (Multiset.mem_cons_self _ _) now)
    | giveUp e k hp ht hn hc =>
      rename_i b cs
      have h2 : Earlier genuine (log ++ [.called k ⟨.timeout, e.header.ack, e.header.destination, e.header.source,
          e.header.packet⟩ e.payload]) := by
        refine earlier_append_singleton ih ?_
        obtain ⟨own, receiver, action, g1, g2⟩ := hcall e (Multiset.mem_cons_self _ _) k hc
        refine ⟨own, receiver, action, e.payload, by simpa using g2 [], Or.inl ⟨by rw [g1], rfl⟩⟩
      simpa using genuine_issues cs h2
    | drop e hp ht hn hc => exact ih
    | retransmit e hp ht hn => exact earlier_append_singleton ih (hs0 e (Multiset.mem_cons_self _ _) now)
    | wait e hp ht => exact ih
    | idle => exact ih

/-- **C123.**  Whenever a callback is called, an action was called with it before, and it is told of this call's timeout,
with the arguments of the call, or of an answer to this call, which arrived or which a component on this board gave
before. -/
theorem C123_genuine (h : run a cfg fuel (init x) steps = some s) {l1 l2 : List Obs} {k : ℕ} {hd : Header} {p : Payload}
    (hl : s.log = l1 ++ .called k hd p :: l2) :
    ∃ own receiver action q, .issued (.callAction own receiver action q (some k)) ∈ l1 ∧
      ((hd = ⟨.timeout, false, receiver, own, action⟩ ∧ p = q) ∨
        (answers hd ⟨.request, false, receiver, own, action⟩ ∧ hd.kind ≠ .request ∧ hd.ack = false ∧
          (.received hd p ∈ l1 ∨ ∃ c, .issued c ∈ l1 ∧ message c = (hd, p)))) := by
  obtain ⟨t, ht⟩ := run_init_reach h
  exact reach_genuine ht l1 _ l2 hl

example : ∃ l1 l2, demoState.log = l1 ++ .called 4 ⟨.response, false, 1, 3, 8⟩ [42] :: l2 :=
  List.append_of_mem (by decide +kernel)

/-- **C129.**  Whatever is sent, and is not an acknowledge, a component ordered before. -/
theorem C129_sent (h : run a cfg fuel (init x) steps = some s) {l1 l2 : List Obs} {t : ℕ} {hd : Header} {p : Payload}
    (hl : s.log = l1 ++ .sent t hd p :: l2) (ha : hd.ack = false) : ∃ c, .issued c ∈ l1 ∧ message c = (hd, p) := by
  obtain ⟨t', ht⟩ := run_init_reach h
  exact reach_genuine ht l1 _ l2 hl ha

example : ∃ l1 l2, demoState.log = l1 ++ .sent 0 ⟨.request, false, 4, 2, 9⟩ [1] :: l2 :=
  List.append_of_mem (by decide +kernel)

/-- **C129.**  Whatever is delivered arrived before or was ordered before by a component on this board. -/
theorem C129_delivered (h : run a cfg fuel (init x) steps = some s) {l1 l2 : List Obs} {hd : Header} {p : Payload}
    (hl : s.log = l1 ++ .delivered hd p :: l2) :
    hd.ack = false ∧ (.received hd p ∈ l1 ∨ ∃ c, .issued c ∈ l1 ∧ message c = (hd, p)) := by
  obtain ⟨t', ht⟩ := run_init_reach h
  exact reach_genuine ht l1 _ l2 hl

example : ∃ l1 l2, demoState.log = l1 ++ .delivered ⟨.request, false, 2, 3, 7⟩ [3] :: l2 :=
  List.append_of_mem (by decide +kernel)

/-- The log of a board. -/
def IsLog (log : List Obs) : Prop :=
  ∃ (σ : Type) (a : App σ) (cfg : Config) (fuel : ℕ) (x : σ) (steps : List Step) (s : State σ),
    run a cfg fuel (init x) steps = some s ∧ s.log = log

/-- **C129.**  Boards connected by a network, which may lose, duplicate, delay and reorder packets, but does not make them
up: whatever is delivered to the components of a board, a component on some board ordered. -/
theorem C129_boards {ι : Type} {logs : ι → List Obs} (hlogs : ∀ i, IsLog (logs i))
    (hlink : ∀ i h p, .received h p ∈ logs i → ∃ j t, .sent t h p ∈ logs j)
    {i : ι} {hd : Header} {p : Payload} (hdel : .delivered hd p ∈ logs i) : ∃ j c, .issued c ∈ logs j ∧ message c = (hd, p) := by
  obtain ⟨σ, a, cfg, fuel, x, steps, s, hrun, hs⟩ := hlogs i
  obtain ⟨l1, l2, hl⟩ := List.append_of_mem hdel
  obtain ⟨hack, hor⟩ := C129_delivered hrun (hs.trans hl)
  rcases hor with hrec | ⟨c, hc, hm⟩
  · obtain ⟨j, t, hsent⟩ := hlink i hd p (by rw [hl]; exact List.mem_append_left _ hrec)
    obtain ⟨σ', a', cfg', fuel', x', steps', s', hrun', hs'⟩ := hlogs j
    obtain ⟨l1', l2', hl'⟩ := List.append_of_mem hsent
    obtain ⟨c, hc, hm⟩ := C129_sent hrun' (hs'.trans hl') hack
    exact ⟨j, c, by rw [hl']; exact List.mem_append_left _ hc, hm⟩
  · exact ⟨i, c, by rw [hl]; exact List.mem_append_left _ hc, hm⟩

/-- **C129.**  Likewise, whatever a callback is told, other than a timeout, a component on some board answered, and it
answered the call. -/
theorem C129_callbacks {ι : Type} {logs : ι → List Obs} (hlogs : ∀ i, IsLog (logs i))
    (hlink : ∀ i h p, .received h p ∈ logs i → ∃ j t, .sent t h p ∈ logs j)
    {i : ι} {k : ℕ} {hd : Header} {p : Payload} (hcal : .called k hd p ∈ logs i) (ht : hd.kind ≠ .timeout) :
    ∃ own receiver action q, .issued (.callAction own receiver action q (some k)) ∈ logs i ∧
      ∃ j, .issued (.sendResponse receiver own action p) ∈ logs j ∨ .issued (.sendNegativeResponse receiver own action p) ∈ logs j := by
  obtain ⟨σ, a, cfg, fuel, x, steps, s, hrun, hs⟩ := hlogs i
  obtain ⟨l1, l2, hl⟩ := List.append_of_mem hcal
  obtain ⟨own, receiver, action, q, hc, hor⟩ := C123_genuine hrun (hs.trans hl)
  refine ⟨own, receiver, action, q, by rw [hl]; exact List.mem_append_left _ hc, ?_⟩
  rcases hor with ⟨rfl, -⟩ | ⟨⟨a1, a2, a3⟩, hk, hack, hor⟩
  · exact absurd rfl ht
  · have hcmd : ∃ j c, .issued c ∈ logs j ∧ message c = (hd, p) := by
      rcases hor with hrec | ⟨c, hc, hm⟩
      · obtain ⟨j, t, hsent⟩ := hlink i hd p (by rw [hl]; exact List.mem_append_left _ hrec)
        obtain ⟨σ', a', cfg', fuel', x', steps', s', hrun', hs'⟩ := hlogs j
        obtain ⟨l1', l2', hl'⟩ := List.append_of_mem hsent
        obtain ⟨c, hc, hm⟩ := C129_sent hrun' (hs'.trans hl') hack
        exact ⟨j, c, by rw [hl']; exact List.mem_append_left _ hc, hm⟩
      · exact ⟨i, c, by rw [hl]; exact List.mem_append_left _ hc, hm⟩
    obtain ⟨j, c, hin, hm⟩ := hcmd
    refine ⟨j, ?_⟩
    simp only at a1 a2 a3
    cases c with
    | callAction o r ac p' k' => simp only [message, Prod.mk.injEq] at hm; rw [← hm.1] at hk; exact absurd rfl hk
    | publishEvent o e p' => simp only [message, Prod.mk.injEq] at hm; rw [← hm.1] at hk; exact absurd rfl hk
    | sendResponse o d n p' =>
      simp only [message, Prod.mk.injEq] at hm
      obtain ⟨rfl, rfl⟩ := hm
      simp only at a1 a2 a3
      subst a1 a2 a3
      exact Or.inl hin
    | sendNegativeResponse o d n p' =>
      simp only [message, Prod.mk.injEq] at hm
      obtain ⟨rfl, rfl⟩ := hm
      simp only at a1 a2 a3
      subst a1 a2 a3
      exact Or.inr hin

/-- Two boards: the first is as above, component 3 on the second echoes the argument of its action 8. -/
def demoOther : App Unit := ⟨fun _ h p => ((), true, [.sendResponse 3 h.source 8 p]), (· == 3), fun _ _ _ _ => ((), [])⟩

def demoSteps1 : List Step := [.command (.callAction 1 3 8 [6] (some 4)), .update 0 [],
  .update 2 [(⟨.request, true, 1, 3, 8⟩, []), (⟨.response, false, 1, 3, 8⟩, [6])]]

def demoSteps2 : List Step := [.update 1 [(⟨.request, false, 3, 1, 8⟩, [6])], .update 3 [(⟨.response, true, 3, 1, 8⟩, [])]]

def demoBoards : Bool → State Unit
  | true => (run demo ⟨100, 200⟩ 20 (init ()) demoSteps1).getD (init ())
  | false => (run demoOther ⟨100, 200⟩ 20 (init ()) demoSteps2).getD (init ())

private def linked (l m : List Obs) : Bool := l.all fun o => match o with
  | .received h p => m.any fun o => match o with | .sent _ h' p' => h' == h && p' == p | _ => false
  | _ => true

private theorem linked_iff {l m : List Obs} (h : linked l m = true) : ∀ h p, .received h p ∈ l → ∃ t, .sent t h p ∈ m := by
  intro h' p hm
  have h1 := List.all_eq_true.mp h _ hm
  simp only [List.any_eq_true] at h1
  obtain ⟨o, ho, hq⟩ := h1
  cases o with
  | sent t h2 p2 =>
    simp only [Bool.and_eq_true, beq_iff_eq] at hq
    obtain ⟨rfl, rfl⟩ := hq
    exact ⟨t, ho⟩
  | _ => simp at hq

example : (∀ i, IsLog (demoBoards i).log) ∧
    (∀ i h p, .received h p ∈ (demoBoards i).log → ∃ j t, .sent t h p ∈ (demoBoards j).log) ∧
    .delivered ⟨.request, false, 3, 1, 8⟩ [6] ∈ (demoBoards false).log ∧
    .called 4 ⟨.response, false, 1, 3, 8⟩ [6] ∈ (demoBoards true).log := by
  refine ⟨fun i => ?_, fun i h p hm => ?_, by decide +kernel, by decide +kernel⟩
  · cases i with
    | true => exact ⟨Unit, demo, ⟨100, 200⟩, 20, (), demoSteps1, demoBoards true, by decide +kernel, rfl⟩
    | false => exact ⟨Unit, demoOther, ⟨100, 200⟩, 20, (), demoSteps2, demoBoards false, by decide +kernel, rfl⟩
  · cases i with
    | true => exact ⟨false, linked_iff (by decide +kernel) h p hm⟩
    | false => exact ⟨true, linked_iff (by decide +kernel) h p hm⟩

/-! ## Numbers of transmissions -/

/-- How often an entry can still be sent. -/
private def remaining (h : Header) (p : Payload) (e : Entry) : ℕ :=
  if e.header = h ∧ e.payload = p then
    match e.phase with
    | .transmissionPending => 3
    | .waitForAck => 2 - e.tries
    | .waitForResponse => 0
  else 0

private theorem sendings_issues (h : Header) (p : Payload) (cs : List Command) : sendings h p (issues cs) = 0 := by
  simp [sendings, issues]

private theorem sendings_ite (h : Header) (p : Payload) (c : Prop) [Decidable c] (t : ℕ) (h' : Header) (hh : h.ack = false) :
    sendings h p (if c then [.sent t (ackOf h') []] else []) = 0 := by
  have : ackOf h' ≠ h := by rintro rfl; simp [ackOf] at hh
  split <;> simp [this]

private theorem ordered_ite (h : Header) (p : Payload) (c : Prop) [Decidable c] (t : ℕ) (h' : Header) :
    ordered h p (if c then [.sent t (ackOf h') []] else []) = 0 := by
  split <;> rfl

private theorem remaining_issues (h : Header) (p : Payload) (cs : List Command) :
    ((news cs).map (remaining h p)).sum = 3 * ordered h p (issues cs) := by
  induction cs with
  | nil => rfl
  | cons c cs ih =>
    have h1 : news (c :: cs) = newEntry c ::ₘ news cs := rfl
    have h2 : issues (c :: cs) = .issued c :: issues cs := rfl
    rw [h1, h2, Multiset.map_cons, Multiset.sum_cons, ih, ordered_cons_issued]
    have : remaining h p (newEntry c) = 3 * (if message c = (h, p) then 1 else 0) := by
      by_cases hc : (newEntry c).header = h ∧ (newEntry c).payload = p
      · rw [if_pos (Prod.ext_iff.mpr hc), remaining, if_pos hc]; rfl
      · rw [if_neg (fun g => hc (Prod.ext_iff.mp g)), remaining, if_neg hc]
    omega

private theorem reach_tries {R : ℕ → ℕ → Prop} {t : ℕ} {b : Multiset Entry} {log : List Obs} (hd : Header) (p : Payload)
    (hh : hd.ack = false) (h : Reach a cfg R t b log) :
    sendings hd p log + (b.map (remaining hd p)).sum ≤ 3 * ordered hd p log := by
  induction h with
  | init => simp
  | issue c h ih =>
    have h1 := remaining_issues hd p [c]
    have h2 := sendings_issues hd p [c]
    simp only [issues, news, List.map_cons, List.map_nil, Multiset.coe_singleton] at h1 h2
    simp only [sendings_append, ordered_append, Multiset.map_add, Multiset.sum_add]
    rw [h1, h2]
    omega
  | move h ht m ih =>
    have hnew : ∀ e ∈ _, _ := h.entries (fun _ e => e.phase = .transmissionPending → e.tries = 0) (fun _ _ _ h => h)
      (fun _ _ _ _ => rfl) (fun _ _ _ _ _ h => by simp at h) (fun _ _ _ _ _ _ _ _ h => by simp at h)
      (fun _ _ _ _ _ _ h => by simp at h) (fun _ _ _ _ _ _ h => by simp at h) (fun _ _ _ h _ _ => h)
    cases m <;>
      (try simp only [sendings_append, ordered_append, Multiset.map_add, Multiset.sum_add, Multiset.map_cons,
        Multiset.sum_cons, sendings_issues, remaining_issues, ordered_ite, sendings_ite _ _ _ _ _ hh,
        sendings_cons_sent, sendings_cons_received, sendings_cons_delivered, sendings_cons_called, sendings_nil,
        ordered_cons_sent, ordered_cons_received, ordered_cons_delivered, ordered_cons_called, ordered_nil] at ih ⊢)
    all_goals (try (simp only [Multiset.mem_cons, forall_eq_or_imp] at hnew; have := hnew.1))
    all_goals (try simp only [remaining] at ih ⊢)
    all_goals (try simp_all only)
    all_goals (try split_ifs at ih ⊢)
    all_goals (try omega)

/-- **C124.**  A packet which is not an acknowledge is sent at most three times for each order. -/
theorem C124_tries (h : run a cfg fuel (init x) steps = some s) (hd : Header) (p : Payload) (hh : hd.ack = false) :
    sendings hd p s.log ≤ 3 * ordered hd p s.log := by
  obtain ⟨t, ht⟩ := run_init_reach h
  have := reach_tries hd p hh ht
  omega

example : sendings ⟨.request, false, 4, 2, 9⟩ [1] demoState.log = 3 ∧ ordered ⟨.request, false, 4, 2, 9⟩ [1] demoState.log = 1 := by
  decide +kernel

/-! ## Acknowledges -/

private theorem ackOf_inj {h h' : Header} (h1 : h.ack = false) (h2 : h'.ack = false) (h3 : ackOf h = ackOf h') : h = h' := by
  cases h; cases h'; simp_all [ackOf]

private theorem sendingsOf_issues (h : Header) (cs : List Command) : sendingsOf h (issues cs) = 0 := by
  simp [sendingsOf, issues]

private theorem arrivalsOf_issues (h : Header) (cs : List Command) : arrivalsOf h (issues cs) = 0 := by
  simp [arrivalsOf, issues]

private theorem arrivalsOf_ite (h : Header) (c : Prop) [Decidable c] (t : ℕ) (h' : Header) :
    arrivalsOf h (if c then [.sent t (ackOf h') []] else []) = 0 := by
  split <;> rfl

private theorem sendingsOf_ite (h : Header) (c : Prop) [Decidable c] (t : ℕ) (h' : Header) (h1 : h.ack = false)
    (h2 : c → h'.ack = false) :
    sendingsOf (ackOf h) (if c then [.sent t (ackOf h') []] else []) = if c ∧ h' = h then 1 else 0 := by
  by_cases hc : c
  · rw [if_pos hc]
    by_cases hh : h' = h
    · rw [if_pos ⟨hc, hh⟩, hh]; simp
    · rw [if_neg (fun g => hh g.2), sendingsOf_cons_sent, if_neg (fun g => hh (ackOf_inj (h2 hc) h1 g))]; simp
  · rw [if_neg hc, if_neg (fun g => hc g.1)]; rfl

/-- The numbers of acknowledges and arrivals: `lo` is a lower bound for the acknowledges of an arrival, `hi` an upper
bound. -/
private theorem reach_acks {R : ℕ → ℕ → Prop} {t : ℕ} {b : Multiset Entry} {log : List Obs} (hd : Header)
    (hh : hd.ack = false) (lo hi : ℕ)
    (hreq : hd.kind = .request → ∀ x p, lo ≤ (if (a.deliver x hd p).2.1 = true ∧ hd.destination ≠ 0 then 1 else 0) ∧
      (if (a.deliver x hd p).2.1 = true ∧ hd.destination ≠ 0 then 1 else 0) ≤ hi)
    (hresp : hd.kind ≠ .request → lo ≤ (if hd.destination ≠ 0 ∧ a.available hd.destination = true then 1 else 0) ∧
      (if hd.destination ≠ 0 then 1 else 0) ≤ hi)
    (h : Reach a cfg R t b log) :
    lo * arrivalsOf hd log ≤ sendingsOf (ackOf hd) log ∧ sendingsOf (ackOf hd) log ≤ hi * arrivalsOf hd log := by
  induction h with
  | init => simp
  | issue c h ih => simpa [arrivalsOf_append, sendingsOf_append] using ih
  | @move t now b log b' log' h ht m ih =>
    have hack : ∀ e ∈ b, e.header ≠ ackOf hd := by
      intro e he hf
      have := h.not_ack e he
      rw [hf] at this
      simp [ackOf] at this
    cases m with
    | rxRequest ok hk ha happ =>
      rename_i h' p' cs
      simp only [arrivalsOf_append, sendingsOf_append, sendingsOf_issues, arrivalsOf_issues, arrivalsOf_ite,
        sendingsOf_ite hd _ _ h' hh (fun _ => ha), sendingsOf_cons_received, sendingsOf_cons_delivered, sendingsOf_nil,
        arrivalsOf_cons_received, arrivalsOf_cons_delivered, arrivalsOf_nil, Nat.mul_add]
      by_cases hd' : h' = hd
      · subst hd'
        obtain ⟨x, rfl⟩ := happ
        have h1 := hreq hk x p'
        simp only [and_true, if_true]
        omega
      · simp only [hd', and_false, if_false]
        omega
    | rxNone hr hn =>
      rename_i h' p'
      simp only [arrivalsOf_append, sendingsOf_append, arrivalsOf_ite,
        sendingsOf_ite hd (h'.ack = false ∧ h'.destination ≠ 0 ∧ a.available h'.destination = true) _ h' hh (fun h => h.1), sendingsOf_cons_received, sendingsOf_nil,
        arrivalsOf_cons_received, arrivalsOf_nil, Nat.mul_add]
      by_cases hd' : h' = hd
      · subst hd'
        have h1 := hresp (fun hk => hr ⟨hk, hh⟩)
        simp only [and_true, if_true, hh, true_and]
        split_ifs at h1 ⊢ <;> simp_all <;> omega
      · simp only [hd', and_false, if_false]
        omega
    | rxDefault e hr hf hc =>
      rename_i h' p'
      simp only [arrivalsOf_append, sendingsOf_append, arrivalsOf_ite,
        sendingsOf_ite hd (h'.ack = false ∧ h'.destination ≠ 0 ∧ a.available h'.destination = true) _ h' hh (fun h => h.1), sendingsOf_cons_received, sendingsOf_nil,
        arrivalsOf_cons_received, arrivalsOf_nil, Nat.mul_add]
      by_cases hd' : h' = hd
      · subst hd'
        have h1 := hresp (fun hk => hr ⟨hk, hh⟩)
        simp only [and_true, if_true, hh, true_and]
        split_ifs at h1 ⊢ <;> simp_all <;> omega
      · simp only [hd', and_false, if_false]
        omega
    | rxAck e k hk ha hf hc =>
      rename_i h' p'
      have : h' ≠ hd := by rintro rfl; rw [hh] at ha; exact absurd ha (by simp)
      simpa [arrivalsOf_append, sendingsOf_append, this] using ih
    | rxAckResponse e k hk ha hf hc =>
      rename_i h' p'
      have : h' ≠ hd := by rintro rfl; rw [hh] at ha; exact absurd ha (by simp)
      simpa [arrivalsOf_append, sendingsOf_append, this] using ih
    | rxResponse e k hk ha hf hc =>
      rename_i b h' p' cs
      simp only [arrivalsOf_append, sendingsOf_append, sendingsOf_issues, arrivalsOf_issues, arrivalsOf_ite,
        sendingsOf_ite hd _ _ h' hh (fun _ => ha), sendingsOf_cons_received, sendingsOf_cons_called, sendingsOf_nil,
        arrivalsOf_cons_received, arrivalsOf_cons_called, arrivalsOf_nil, Nat.mul_add]
      by_cases hd' : h' = hd
      · subst hd'
        have h1 := hresp hk
        simp only [and_true, if_true]
        split_ifs at h1 ⊢ <;> simp_all <;> omega
      · simp only [hd', and_false, if_false]
        omega
    | event e hp hd => simpa [arrivalsOf_append, sendingsOf_append, sendingsOf_issues, arrivalsOf_issues, hack e (Multiset.mem_cons_self _ _)] using ih
    | innerCall e k hp hd hv hk hc => simpa [arrivalsOf_append, sendingsOf_append, sendingsOf_issues, arrivalsOf_issues, hack e (Multiset.mem_cons_self _ _)] using ih
    | innerDefault e hp hd hv hk hc => simpa [arrivalsOf_append, sendingsOf_append, sendingsOf_issues, arrivalsOf_issues, hack e (Multiset.mem_cons_self _ _)] using ih
    | innerAnswer e q k hp hd hv hk hq hc => simpa [arrivalsOf_append, sendingsOf_append, sendingsOf_issues, arrivalsOf_issues, hack e (Multiset.mem_cons_self _ _)] using ih
    | innerDrop e q hp hd hv hk hq hc => simpa [arrivalsOf_append, sendingsOf_append, hack e (Multiset.mem_cons_self _ _)] using ih
    | innerNone e hp hd hv hk => simpa [arrivalsOf_append, sendingsOf_append, hack e (Multiset.mem_cons_self _ _)] using ih
    | transmit e hp hd hv => simpa [arrivalsOf_append, sendingsOf_append, hack e (Multiset.mem_cons_self _ _)] using ih
    | giveUp e k hp ht hn hc => simpa [arrivalsOf_append, sendingsOf_append, sendingsOf_issues, arrivalsOf_issues] using ih
    | drop e hp ht hn hc => exact ih
    | retransmit e hp ht hn => simpa [arrivalsOf_append, sendingsOf_append, hack e (Multiset.mem_cons_self _ _)] using ih
    | wait e hp ht => exact ih
    | idle => exact ih

/-- **C122.**  Every arrival of an action call which the components accept is acknowledged once, also if it arrives
several times. -/
theorem C122_accepted (h : run a cfg fuel (init x) steps = some s) (hd : Header) (hk : hd.kind = .request)
    (ha : hd.ack = false) (h0 : hd.destination ≠ 0) (hok : ∀ x p, (a.deliver x hd p).2.1 = true) :
    sendingsOf (ackOf hd) s.log = arrivalsOf hd s.log := by
  obtain ⟨t, ht⟩ := run_init_reach h
  have := reach_acks hd ha 1 1 (fun _ x p => by rw [if_pos ⟨hok x p, h0⟩]; exact ⟨le_rfl, le_rfl⟩)
    (fun h => absurd hk h) ht
  omega

example : sendingsOf (ackOf ⟨.request, false, 2, 3, 7⟩) demoState.log = 2 ∧ arrivalsOf ⟨.request, false, 2, 3, 7⟩ demoState.log = 2 ∧
    ∀ x p, (demo.deliver x ⟨.request, false, 2, 3, 7⟩ p).2.1 = true :=
  ⟨by decide +kernel, by decide +kernel, fun _ _ => rfl⟩

/-- **C122.**  An action call which the components do not accept is never acknowledged. -/
theorem C122_refused (h : run a cfg fuel (init x) steps = some s) (hd : Header) (hk : hd.kind = .request)
    (ha : hd.ack = false) (hok : ∀ x p, (a.deliver x hd p).2.1 = false) : sendingsOf (ackOf hd) s.log = 0 := by
  obtain ⟨t, ht⟩ := run_init_reach h
  have := reach_acks hd ha 0 0 (fun _ x p => by rw [if_neg (by simp [hok])]; exact ⟨le_rfl, le_rfl⟩)
    (fun h => absurd hk h) ht
  omega

example : arrivalsOf ⟨.request, false, 1, 3, 50⟩ demoState.log = 1 ∧ ∀ x p, (demo.deliver x ⟨.request, false, 1, 3, 50⟩ p).2.1 = false :=
  ⟨by decide +kernel, fun _ _ => rfl⟩

/-- **C122.**  Events are never acknowledged. -/
theorem C122_event (h : run a cfg fuel (init x) steps = some s) (hd : Header) (ha : hd.ack = false)
    (h0 : hd.destination = 0) : sendingsOf (ackOf hd) s.log = 0 := by
  obtain ⟨t, ht⟩ := run_init_reach h
  have := reach_acks hd ha 0 0 (fun _ x p => by rw [if_neg (by simp [h0])]; exact ⟨le_rfl, le_rfl⟩)
    (fun h => ⟨Nat.zero_le _, by rw [if_neg (by simp [h0])]⟩) ht
  omega

example : arrivalsOf ⟨.request, false, 0, 3, 11⟩ demoState.log = 1 := by decide +kernel

/-- **C122.**  Every arrival of a response to a component on this board is acknowledged once. -/
theorem C122_response (h : run a cfg fuel (init x) steps = some s) (hd : Header) (hk : hd.kind ≠ .request)
    (ha : hd.ack = false) (h0 : hd.destination ≠ 0) (hav : a.available hd.destination = true) :
    sendingsOf (ackOf hd) s.log = arrivalsOf hd s.log := by
  obtain ⟨t, ht⟩ := run_init_reach h
  have := reach_acks hd ha 1 1 (fun h => absurd h hk)
    (fun h => by rw [if_pos ⟨h0, hav⟩, if_pos h0]; exact ⟨le_rfl, le_rfl⟩) ht
  omega

example : sendingsOf (ackOf ⟨.response, false, 1, 3, 8⟩) demoState.log = 2 ∧ demo.available 1 = true := by decide +kernel

/-- **C122.**  Whatever the components do, there are never more acknowledges of a packet than arrivals. -/
theorem C122_no_more (h : run a cfg fuel (init x) steps = some s) (hd : Header) (ha : hd.ack = false) :
    sendingsOf (ackOf hd) s.log ≤ arrivalsOf hd s.log := by
  obtain ⟨t, ht⟩ := run_init_reach h
  have := reach_acks hd ha 0 1 (fun _ x p => ⟨Nat.zero_le _, by split <;> omega⟩)
    (fun h => ⟨Nat.zero_le _, by split <;> omega⟩) ht
  omega

example : sendingsOf (ackOf ⟨.request, false, 1, 3, 50⟩) demoState.log = 0 ∧
    sendingsOf (ackOf ⟨.request, false, 1, 3, 50⟩) demoState.log ≤ arrivalsOf ⟨.request, false, 1, 3, 50⟩ demoState.log :=
  ⟨by decide +kernel, C122_no_more demo_run _ rfl⟩

/-! ## Deliveries and losses -/

/-- The entry is waiting to be sent for the first time. -/
private def waits (h : Header) (p : Payload) (e : Entry) : Prop :=
  e.header = h ∧ e.payload = p ∧ e.phase = .transmissionPending

private instance (h : Header) (p : Payload) (e : Entry) : Decidable (waits h p e) := by unfold waits; infer_instance

private theorem waits_iff (h : Header) (p : Payload) (e : Entry) :
    waits h p e ↔ e.header = h ∧ e.payload = p ∧ e.phase = .transmissionPending := Iff.rfl

private theorem waits_issues (h : Header) (p : Payload) (cs : List Command) :
    (news cs).countP (waits h p) = ordered h p (issues cs) := by
  induction cs with
  | nil => rfl
  | cons c cs ih =>
    have h1 : news (c :: cs) = newEntry c ::ₘ news cs := rfl
    have h2 : issues (c :: cs) = .issued c :: issues cs := rfl
    rw [h1, h2, Multiset.countP_cons, ih, ordered_cons_issued, Nat.add_comm]
    congr 1
    have : waits h p (newEntry c) ↔ message c = (h, p) := by
      rw [Prod.ext_iff]
      exact ⟨fun g => ⟨g.1, g.2.1⟩, fun g => ⟨g.1, g.2, rfl⟩⟩
    by_cases hc : message c = (h, p)
    · rw [if_pos hc, if_pos (this.mpr hc)]
    · rw [if_neg hc, if_neg (fun g => hc (this.mp g))]

private theorem waits_issue (h : Header) (p : Payload) (c : Command) :
    ({newEntry c} : Multiset Entry).countP (waits h p) = ordered h p [.issued c] :=
  waits_issues h p [c]

private theorem deliveries_issues (h : Header) (p : Payload) (cs : List Command) : deliveries h p (issues cs) = 0 := by
  simp [deliveries, issues]

private theorem arrivals_issues (h : Header) (p : Payload) (cs : List Command) : arrivals h p (issues cs) = 0 := by
  simp [arrivals, issues]

private theorem deliveries_ite (h : Header) (p : Payload) (c : Prop) [Decidable c] (t : ℕ) (h' : Header) :
    deliveries h p (if c then [.sent t (ackOf h') []] else []) = 0 := by
  split <;> rfl

private theorem arrivals_ite (h : Header) (p : Payload) (c : Prop) [Decidable c] (t : ℕ) (h' : Header) :
    arrivals h p (if c then [.sent t (ackOf h') []] else []) = 0 := by
  split <;> rfl

private theorem reach_delivered_ge {R : ℕ → ℕ → Prop} {t : ℕ} {b : Multiset Entry} {log : List Obs} (hd : Header) (p : Payload)
    (hk : hd.kind = .request) (ha : hd.ack = false)
    (h : Reach a cfg R t b log) : arrivals hd p log ≤ deliveries hd p log := by
  induction h with
  | init => simp
  | issue c h ih => simpa [deliveries_append, arrivals_append] using ih
  | move h ht m ih =>
    cases m <;>
      (try simp only [deliveries_append, arrivals_append, deliveries_issues, arrivals_issues, deliveries_ite, arrivals_ite,
        deliveries_cons_sent, deliveries_cons_received, deliveries_cons_delivered, deliveries_cons_called, deliveries_nil,
        arrivals_cons_sent, arrivals_cons_received, arrivals_cons_delivered, arrivals_cons_called, arrivals_nil] at ih ⊢)
    all_goals (try split_ifs)
    all_goals (try omega)
    all_goals simp_all

private theorem reach_delivered_le {R : ℕ → ℕ → Prop} {t : ℕ} {b : Multiset Entry} {log : List Obs} (hd : Header) (p : Payload)
    (h : Reach a cfg R t b log) :
    deliveries hd p log + b.countP (waits hd p) ≤ arrivals hd p log + ordered hd p log := by
  induction h with
  | init => simp
  | issue c h ih =>
    simp only [deliveries_append, arrivals_append, ordered_append, Multiset.countP_add, waits_issue, deliveries_cons_issued,
      arrivals_cons_issued, deliveries_nil, arrivals_nil]
    omega
  | move h ht m ih =>
    cases m <;>
      (try simp only [deliveries_append, arrivals_append, deliveries_issues, arrivals_issues, deliveries_ite, arrivals_ite,
        ordered_append, ordered_ite, Multiset.countP_add, Multiset.countP_cons, waits_issues,
        deliveries_cons_sent, deliveries_cons_received, deliveries_cons_delivered, deliveries_cons_called, deliveries_nil,
        arrivals_cons_sent, arrivals_cons_received, arrivals_cons_delivered, arrivals_cons_called, arrivals_nil,
        ordered_cons_sent, ordered_cons_received, ordered_cons_delivered, ordered_cons_called, ordered_nil] at ih ⊢)
    all_goals (try simp only [waits] at ih ⊢)
    all_goals (try split_ifs at ih ⊢)
    all_goals (try omega)
    all_goals simp_all
    all_goals (try omega)

/-- Counting in one case. -/
local macro "waits_tac" ih:ident : tactic => `(tactic| (
  simp only [deliveries_append, arrivals_append, sendings_append, deliveries_issues, arrivals_issues, sendings_issues,
    deliveries_ite, arrivals_ite, ordered_append, ordered_ite, Multiset.countP_add, Multiset.countP_cons, waits_issues,
    deliveries_cons_sent, deliveries_cons_received, deliveries_cons_delivered, deliveries_cons_called, deliveries_nil,
    arrivals_cons_sent, arrivals_cons_received, arrivals_cons_delivered, arrivals_cons_called, arrivals_nil,
    sendings_cons_sent, sendings_cons_received, sendings_cons_delivered, sendings_cons_called, sendings_nil,
    ordered_cons_sent, ordered_cons_received, ordered_cons_delivered, ordered_cons_called, ordered_nil, if_neg, *] at $ih:ident ⊢
  (try simp only [waits_iff] at $ih:ident ⊢)
  (try split_ifs at $ih:ident ⊢)
  all_goals (try omega)
  all_goals (try simp_all)
  all_goals (try split_ifs at $ih:ident)
  all_goals (try omega)
  all_goals (try simp_all)))

private theorem reach_event {R : ℕ → ℕ → Prop} {t : ℕ} {b : Multiset Entry} {log : List Obs} (hd : Header) (p : Payload)
    (hk : hd.kind = .request) (ha : hd.ack = false) (h0 : hd.destination = 0)
    (h : Reach a cfg R t b log) (hs : ∀ h' p', .received h' p' ∈ log → h'.source ≠ 0) :
    arrivals hd p log + ordered hd p log ≤ deliveries hd p log + b.countP (waits hd p) := by
  induction h with
  | init => simp
  | issue c h ih =>
    have ih := ih (fun h' p' hm => hs h' p' (List.mem_append_left _ hm))
    simp only [deliveries_append, arrivals_append, ordered_append, Multiset.countP_add, waits_issue]
    simp only [deliveries_cons_issued, arrivals_cons_issued, deliveries_nil, arrivals_nil]
    omega
  | move h ht m ih =>
    -- an entry which fits a packet does not wait for its first transmission
    have hfit : ∀ e h', e.headerFits h' = true → h'.source ≠ 0 → ¬ waits hd p e := by
      rintro e h' hf hn ⟨rfl, -, -⟩
      exact hn ((fits_answers hf).1.trans h0)
    have hwait : ∀ q h', Entry.isWaitingFor h' q = true → ¬ waits hd p q := by
      rintro q h' hq ⟨-, -, hp⟩
      simp [Entry.isWaitingFor, hp] at hq
    have hphase : ∀ e : Entry, e.phase ≠ .transmissionPending → ¬ waits hd p e := fun e h1 h2 => h1 h2.2.2
    cases m
    case drop e hp ht hn hc =>
      have ih := ih hs
      rw [Multiset.countP_cons, if_neg (hphase e (by simp [hp]))] at ih
      exact ih
    case wait e hp ht =>
      have ih := ih hs
      rw [Multiset.countP_cons, if_neg (hphase e (by simp [hp]))] at ih
      rw [Multiset.countP_cons, if_neg (hphase _ (by simp [hp]))]
      exact ih
    case idle => exact ih hs
    all_goals
      replace ih := ih (fun h' p' hm => hs h' p' (List.mem_append_left _ hm))
    case rxDefault h' p' e hr hf hc => have hw := hfit e h' hf (hs h' p' (by simp)); waits_tac ih
    case rxAck h' p' e k hk ha hf hc =>
      have hw := hfit e h' hf (hs h' p' (by simp))
      have hw2 : ¬ waits hd p ⟨e.callback, e.header, e.payload, .waitForResponse, e.time, e.tries⟩ := hphase _ (by simp)
      waits_tac ih
    case rxAckResponse h' p' e k hk ha hf hc => have hw := hfit e h' hf (hs h' p' (by simp)); waits_tac ih
    case rxResponse h' p' cs e k hk ha hf hc => have hw := hfit e h' hf (hs h' p' (by simp)); waits_tac ih
    case innerAnswer cs e q k hp hd0 hv hk hq hc => have hw := hwait q _ hq; waits_tac ih
    case innerDrop e q hp hd0 hv hk hq hc => have hw := hwait q _ hq; waits_tac ih
    case retransmit e hp ht hn => have hw := hphase e (by simp [hp]); waits_tac ih
    case giveUp e k hp ht hn hc => have hw := hphase e (by simp [hp]); waits_tac ih
    all_goals waits_tac ih

private theorem reach_sent {R : ℕ → ℕ → Prop} {t : ℕ} {b : Multiset Entry} {log : List Obs} (hd : Header) (p : Payload)
    
    (h : Reach a cfg R t b log) (hs : ∀ h' p', .received h' p' ∈ log → ¬ answers h' hd) :
    ordered hd p log ≤ sendings hd p log + b.countP (waits hd p) := by
  induction h with
  | init => simp
  | issue c h ih =>
    have ih := ih (fun h' p' hm => hs h' p' (List.mem_append_left _ hm))
    simp only [sendings_append, ordered_append, Multiset.countP_add, waits_issue]
    simp only [sendings_cons_issued, sendings_nil]
    omega
  | move h ht m ih =>
    -- an entry which fits a packet does not wait for its first transmission
    have hfit : ∀ e h', e.headerFits h' = true → ¬ answers h' hd → ¬ waits hd p e := by
      rintro e h' hf hn ⟨rfl, -, -⟩
      exact hn (fits_answers hf)
    have hwait : ∀ q h', Entry.isWaitingFor h' q = true → ¬ waits hd p q := by
      rintro q h' hq ⟨-, -, hp⟩
      simp [Entry.isWaitingFor, hp] at hq
    have hphase : ∀ e : Entry, e.phase ≠ .transmissionPending → ¬ waits hd p e := fun e h1 h2 => h1 h2.2.2
    cases m
    case drop e hp ht hn hc =>
      have ih := ih hs
      rw [Multiset.countP_cons, if_neg (hphase e (by simp [hp]))] at ih
      exact ih
    case wait e hp ht =>
      have ih := ih hs
      rw [Multiset.countP_cons, if_neg (hphase e (by simp [hp]))] at ih
      rw [Multiset.countP_cons, if_neg (hphase _ (by simp [hp]))]
      exact ih
    case idle => exact ih hs
    all_goals
      replace ih := ih (fun h' p' hm => hs h' p' (List.mem_append_left _ hm))
    case rxDefault h' p' e hr hf hc => have hw := hfit e h' hf (hs h' p' (by simp)); waits_tac ih
    case rxAck h' p' e k hk ha hf hc =>
      have hw := hfit e h' hf (hs h' p' (by simp))
      have hw2 : ¬ waits hd p ⟨e.callback, e.header, e.payload, .waitForResponse, e.time, e.tries⟩ := hphase _ (by simp)
      waits_tac ih
    case rxAckResponse h' p' e k hk ha hf hc => have hw := hfit e h' hf (hs h' p' (by simp)); waits_tac ih
    case rxResponse h' p' cs e k hk ha hf hc => have hw := hfit e h' hf (hs h' p' (by simp)); waits_tac ih
    case innerAnswer cs e q k hp hd0 hv hk hq hc => have hw := hwait q _ hq; waits_tac ih
    case innerDrop e q hp hd0 hv hk hq hc => have hw := hwait q _ hq; waits_tac ih
    case retransmit e hp ht hn => have hw := hphase e (by simp [hp]); waits_tac ih
    case giveUp e k hp ht hn hc => have hw := hphase e (by simp [hp]); waits_tac ih
    all_goals waits_tac ih

/-! ## One pass over the entries -/

private theorem countP_eraseIdx {α : Type} (P : α → Bool) (l : List α) (i : ℕ) (q : α) (h : l[i]? = some q) (hq : P q = false) :
    (l.eraseIdx i).countP P = l.countP P := by
  obtain ⟨hi, rfl⟩ := List.getElem?_eq_some_iff.mp h
  have := (List.getElem_cons_eraseIdx_perm hi).countP_eq P
  rw [List.countP_cons, hq] at this
  simpa using this

private theorem isWaitingFor_phase {q : Entry} {h : Header} (hq : q.isWaitingFor h = true) :
    q.phase ≠ .transmissionPending := by
  intro hp; simp [Entry.isWaitingFor, hp] at hq

private theorem visitAll_sent {now : ℕ} {s s' : State σ} (hd : Header) (p : Payload)
    (h : visitAll a cfg now fuel s = some s') :
    sendings hd p s.log + s.after.countP (fun e => decide (waits hd p e)) ≤ sendings hd p s'.log := by
  induction fuel generalizing s with
  | zero => exact absurd h (by simp [visitAll])
  | succ fuel ih =>
    rw [visitAll] at h
    cases hl : s.after with
    | nil => rw [hl] at h; cases h; simp
    | cons e l =>
      rw [hl] at h
      have := ih h
      refine le_trans ?_ this
      obtain ⟨cs, o1, o2, kept, l', x', hsh, hv⟩ := visit_shape a cfg now s e l hl
      rw [hv]
      simp only [sendings_append, sendings_issues, List.countP_append, List.countP_cons]
      have hq : ∀ i q, l[i]? = some q → Entry.isWaitingFor e.header q = true →
          (l.eraseIdx i).countP (fun e => decide (waits hd p e)) = l.countP (fun e => decide (waits hd p e)) := by
        intro i q hi hq
        exact countP_eraseIdx _ l i q hi (by simpa using fun hw : waits hd p q => isWaitingFor_phase hq hw.2.2)
      cases hsh with
      | innerAnswer i k q hp hd hv hk hi hw hc =>
        rw [hq i q hi hw]; simp only [sendings_cons_sent, sendings_cons_called, sendings_nil, decide_eq_true_eq, waits_iff]
        split_ifs <;> simp_all; omega
      | innerDrop i q hp hd hv hk hi hw hc =>
        rw [hq i q hi hw]; simp only [sendings_cons_sent, sendings_nil, decide_eq_true_eq, waits_iff]
        split_ifs <;> simp_all; omega
      | _ =>
        simp only [sendings_cons_sent, sendings_cons_called, sendings_cons_delivered, sendings_nil, decide_eq_true_eq, waits_iff,
          List.countP_cons]
        split_ifs <;> simp_all <;> omega

/-- Nothing but responses waits where the loop has been. -/
private def onlyResponses (l : List Entry) : Prop := ∀ e ∈ l, e.phase = .transmissionPending → e.header.kind ≠ .request

private theorem onlyResponses_responses (cs : List Command) : onlyResponses (responses cs) := by
  intro e he _
  simp only [responses, List.mem_reverse, List.mem_map, List.mem_filter] at he
  obtain ⟨c, ⟨-, hc⟩, rfl⟩ := he
  cases c <;> simp_all [isResponse, newEntry, message, entry]

private theorem onlyResponses_append {l m : List Entry} (hl : onlyResponses l) (hm : onlyResponses m) :
    onlyResponses (l ++ m) := by
  intro e he
  rcases List.mem_append.mp he with h | h
  · exact hl e h
  · exact hm e h

private theorem visit_onlyResponses {now : ℕ} {s : State σ} {e : Entry} {l : List Entry} (hl : s.after = e :: l)
    (hb : onlyResponses s.before) : onlyResponses (visit a cfg now e s).before := by
  obtain ⟨cs, o1, o2, kept, l', x', hsh, hv⟩ := visit_shape a cfg now s e l hl
  rw [hv]
  refine onlyResponses_append (onlyResponses_append (onlyResponses_responses cs) hb) ?_
  intro e' he'
  cases hsh <;> simp_all

private theorem visitAll_onlyResponses {now : ℕ} {s s' : State σ} (h : visitAll a cfg now fuel s = some s')
    (hb : onlyResponses s.before) : onlyResponses s'.before ∧ s'.after = [] := by
  induction fuel generalizing s with
  | zero => exact absurd h (by simp [visitAll])
  | succ fuel ih =>
    rw [visitAll] at h
    cases hl : s.after with
    | nil => rw [hl] at h; cases h; exact ⟨hb, hl⟩
    | cons e l =>
      rw [hl] at h
      exact ih h (visit_onlyResponses hl hb)

/-- After an update nothing but responses waits. -/
private theorem update_no_waits {now : ℕ} {packets : List (Header × Payload)} {s s' : State σ}
    (hu : update a cfg now fuel packets s = some s') (hd : Header) (p : Payload) (hk : hd.kind = .request) :
    (bag s').countP (waits hd p) = 0 := by
  obtain ⟨h1, h2⟩ := visitAll_onlyResponses (s := ⟨[], _, _, _⟩) hu (fun e he => by simp at he)
  rw [Multiset.countP_eq_zero]
  intro e he hw
  rw [bag, h2, List.append_nil] at he
  exact h1 e he hw.2.2 (by rw [hw.1]; exact hk)

/-- Everything ordered before an update is sent, unless an answer to it arrived. -/
private theorem update_sent {now : ℕ} {packets : List (Header × Payload)} {s' : State σ}
    (h : run a cfg fuel (init x) steps = some s) (hu : update a cfg now fuel packets s = some s') (hd : Header) (p : Payload)
    (hs : ∀ h' p', .received h' p' ∈ s'.log → ¬ answers h' hd) :
    ordered hd p s.log ≤ sendings hd p s'.log := by
  obtain ⟨t, ht⟩ := run_init_reach h
  obtain ⟨t', -, h2⟩ := receive_reach (R := fun _ _ => True) (fun _ => trivial) packets ht (now := now) trivial
  obtain ⟨l1, e1⟩ := receive_log (a := a) (now := now) packets s
  have hu' := hu
  rw [update, handleWaitingMessages] at hu'
  generalize hs1 : packets.foldl (fun s hp => updateOnceRx a now hp.1 hp.2 s) s = s1 at *
  obtain ⟨l2, e2⟩ := visitAll_log hu'
  have hp := visitAll_sent hd p hu'
  have hr := reach_sent hd p h2 (fun h' p' hm => hs h' p' (by rw [e2]; exact List.mem_append_left _ hm))
  have hb : (bag s1).countP (waits hd p) = (s1.before ++ s1.after).countP (fun e => decide (waits hd p e)) := by
    rw [bag, Multiset.coe_countP]
  have ho := congrArg (ordered hd p) e1
  rw [ordered_append] at ho
  simp only at hp
  omega

/-- **C126.**  Everything which the components ordered before an `update` has been sent when it returns, as often as it was
ordered, unless an answer to it has arrived.  What is missing is this condition: see the counterexamples. -/
theorem C126_sent_partial {now : ℕ} {packets : List (Header × Payload)} {s' : State σ}
    (h : run a cfg fuel (init x) steps = some s) (hu : update a cfg now fuel packets s = some s') (hd : Header) (p : Payload)
    (hs : ∀ h' p', .received h' p' ∈ s'.log → ¬ answers h' hd) :
    ordered hd p s.log ≤ sendings hd p s'.log :=
  update_sent h hu hd p hs

example : (∀ h' p', .received h' p' ∈ demoLast.log → ¬ answers h' ⟨.request, false, 4, 2, 9⟩) ∧
    ordered ⟨.request, false, 4, 2, 9⟩ [1] demoState.log = 1 := by
  refine ⟨fun h p hm => ?_, by decide +kernel⟩
  simpa using all_received (f := fun h _ => !decide (answers h ⟨.request, false, 4, 2, 9⟩)) (by decide +kernel) h p hm

/-- **C126.**  Action calls and events, in addition, are sent within the `update` in which they are ordered. -/
theorem C126_requests_partial {now : ℕ} {packets : List (Header × Payload)} {s' : State σ}
    (h : run a cfg fuel (init x) steps = some s) (hu : update a cfg now fuel packets s = some s') (hd : Header) (p : Payload)
    (hk : hd.kind = .request) (hs : ∀ h' p', .received h' p' ∈ s'.log → ¬ answers h' hd) :
    ordered hd p s'.log ≤ sendings hd p s'.log := by
  obtain ⟨t, ht⟩ := run_init_reach h
  obtain ⟨t', -, h2⟩ := update_reach (R := fun _ _ => True) (fun _ => trivial) ht trivial hu
  have := reach_sent hd p h2 hs
  rw [update_no_waits hu hd p hk] at this
  exact this

example : (∀ h' p', .received h' p' ∈ demoLast.log → ¬ answers h' ⟨.request, false, 0, 1, 6⟩) ∧
    ordered ⟨.request, false, 0, 1, 6⟩ [1] demoLast.log = 1 := by
  refine ⟨fun h p hm => ?_, by decide +kernel⟩
  simpa using all_received (f := fun h _ => !decide (answers h ⟨.request, false, 0, 1, 6⟩)) (by decide +kernel) h p hm

/-- **C126.**  A response on the board ends at most a call it answers: whatever else is further on in the list, in
particular every other response, stays there. -/
theorem C126_responses_stay {now : ℕ} {e q : Entry} {l : List Entry} (hl : s.after = e :: l) (hq : q ∈ l)
    (hk : q.header.kind ≠ .request ∨ ¬ answers e.header q.header) : q ∈ (visit a cfg now e s).after := by
  obtain ⟨cs, o1, o2, kept, l', x', hsh, hv⟩ := visit_shape a cfg now s e l hl
  rw [hv]
  refine List.mem_append_left _ ?_
  have key : ∀ {i : ℕ} {w : Entry}, l[i]? = some w → w.isWaitingFor e.header = true → q ∈ l.eraseIdx i := by
    intro i w hi hw
    simp only [Entry.isWaitingFor, Bool.and_eq_true, beq_iff_eq] at hw
    obtain ⟨j, hj, rfl⟩ := List.mem_iff_getElem.mp hq
    rw [List.mem_eraseIdx_iff_getElem?]
    refine ⟨j, ?_, List.getElem?_eq_getElem hj⟩
    rintro rfl
    rw [List.getElem?_eq_getElem hj, Option.some.injEq] at hi
    subst hi
    exact hk.elim (fun h => h hw.1.1) (fun h => h (fits_answers hw.2))
  cases hsh with
  | innerCall => exact List.mem_cons_of_mem _ hq
  | innerAnswer i k w hp hd hv hk' hi hw hc => exact key hi hw
  | innerDrop i w hp hd hv hk' hi hw hc => exact key hi hw
  | _ => exact hq

example : ∃ e q : Entry, e.header.kind = .response ∧ q.header.kind ≠ .request ∧ q.phase = .waitForAck ∧ answers e.header q.header ∧
    demo.available e.header.destination = true ∧
    q ∈ (visit demo ⟨100, 200⟩ 5 e ⟨[], [e, q], (), []⟩).after := by
  refine ⟨newEntry (.sendResponse 3 1 7 [1]), { newEntry (.sendResponse 1 3 7 [2]) with phase := .waitForAck }, rfl, by decide, rfl,
    by decide +kernel, by decide +kernel, C126_responses_stay rfl (by simp) (Or.inl (by decide))⟩

/-- **C127.**  When `update` returns, the components have been told of every event as often as it arrived and was published,
if no packet claims to come from component 0. -/
theorem C127_delivered {now : ℕ} {packets : List (Header × Payload)} {s' : State σ}
    (h : run a cfg fuel (init x) steps = some s) (hu : update a cfg now fuel packets s = some s') (hd : Header) (p : Payload)
    (hk : hd.kind = .request) (ha : hd.ack = false) (h0 : hd.destination = 0)
    (hs : ∀ h' p', .received h' p' ∈ s'.log → h'.source ≠ 0) :
    deliveries hd p s'.log = arrivals hd p s'.log + ordered hd p s'.log := by
  obtain ⟨t, ht⟩ := run_init_reach h
  obtain ⟨t', -, h2⟩ := update_reach (R := fun _ _ => True) (fun _ => trivial) ht trivial hu
  have h3 := reach_event hd p hk ha h0 h2 hs
  have h4 := reach_delivered_le hd p h2
  rw [update_no_waits hu hd p hk] at h3 h4
  omega

example : (∀ h' p', .received h' p' ∈ demoLast.log → h'.source ≠ 0) ∧
    deliveries ⟨.request, false, 0, 3, 11⟩ [8] demoLast.log = 1 ∧ deliveries ⟨.request, false, 0, 1, 6⟩ [1] demoLast.log = 1 := by
  refine ⟨fun h p hm => ?_, by decide +kernel⟩
  simpa using all_received (f := fun h _ => h.source != 0) (by decide +kernel) h p hm

/-- **C122.**  Every arrival of an action call or an event is delivered, and nothing is delivered more often than it arrived
and was ordered on this board. -/
theorem C122_delivered (h : run a cfg fuel (init x) steps = some s) (hd : Header) (p : Payload)
    (hk : hd.kind = .request) (ha : hd.ack = false) :
    arrivals hd p s.log ≤ deliveries hd p s.log ∧ deliveries hd p s.log ≤ arrivals hd p s.log + ordered hd p s.log := by
  obtain ⟨t, ht⟩ := run_init_reach h
  have h1 := reach_delivered_ge hd p hk ha ht
  have h2 := reach_delivered_le hd p ht
  omega

example : arrivals ⟨.request, false, 2, 3, 7⟩ [3] demoState.log = 2 ∧ deliveries ⟨.request, false, 2, 3, 7⟩ [3] demoState.log = 2 := by
  decide +kernel

/-! ## The order of events -/

/-- The events waiting to be sent. -/
private def waitingEvents (l : List Entry) : List (Header × Payload) :=
  l.filterMap fun e => if e.phase = .transmissionPending ∧ e.header.destination = 0 ∧ e.header.kind = .request then
    some (e.header, e.payload) else none

private theorem waitingEvents_append (l m : List Entry) : waitingEvents (l ++ m) = waitingEvents l ++ waitingEvents m := by
  simp [waitingEvents]

private theorem published_append (l m : List Obs) : published (l ++ m) = published l ++ published m := by
  simp [published]

private theorem broadcast_append (l m : List Obs) : broadcast (l ++ m) = broadcast l ++ broadcast m := by
  simp [broadcast]

private theorem broadcast_sent (t : ℕ) (h : Header) (p : Payload) (l : List Obs) : broadcast (.sent t h p :: l) =
    (if h.destination = 0 ∧ h.kind = .request ∧ h.ack = false then [(h, p)] else []) ++ broadcast l := by
  simp only [broadcast, List.filterMap_cons]
  split_ifs <;> rfl

private theorem broadcast_nil : broadcast [] = [] := rfl

private theorem published_nil : published [] = [] := rfl

private theorem broadcast_issues (cs : List Command) : broadcast (issues cs) = [] := by
  simp [broadcast, issues, List.filterMap_map]

private theorem broadcast_ite (c : Prop) [Decidable c] (t : ℕ) (h : Header) :
    broadcast (if c then [.sent t (ackOf h) []] else []) = [] := by
  split <;> simp [broadcast, ackOf]

private theorem published_ite (c : Prop) [Decidable c] (t : ℕ) (h : Header) :
    published (if c then [.sent t (ackOf h) []] else []) = [] := by
  split <;> simp [published]

private theorem waitingEvents_responses (cs : List Command) : waitingEvents (responses cs) = [] := by
  simp only [waitingEvents, List.filterMap_eq_nil_iff]
  intro e he
  rw [if_neg]
  rintro ⟨h1, -, h2⟩
  exact onlyResponses_responses cs e he h1 h2

private theorem waitingEvents_messages (cs : List Command) : waitingEvents (messages cs) = published (issues cs) := by
  induction cs with
  | nil => rfl
  | cons c cs ih =>
    cases c <;>
      simp_all [waitingEvents, messages, published, issues, isResponse, newEntry, entry, message,
        List.filterMap_cons]

private theorem waitingEvents_eraseIdx {l : List Entry} {i : ℕ} {q : Entry} (hi : l[i]? = some q)
    (hq : q.phase ≠ .transmissionPending) : waitingEvents (l.eraseIdx i) = waitingEvents l := by
  induction l generalizing i with
  | nil => rfl
  | cons e l ih =>
    cases i with
    | zero => simp at hi; subst hi; simp [waitingEvents, hq]
    | succ i =>
      rw [List.getElem?_cons_succ] at hi
      rw [List.eraseIdx_cons_succ]
      have := ih hi
      simp only [waitingEvents, List.filterMap_cons] at this ⊢
      rw [this]

private theorem waitingEvents_onlyResponses {l : List Entry} (h : onlyResponses l) : waitingEvents l = [] := by
  simp only [waitingEvents, List.filterMap_eq_nil_iff]
  intro e he
  rw [if_neg]
  rintro ⟨h1, -, h2⟩
  exact h e he h1 h2

/-- One round of the loop keeps the order. -/
private theorem visit_events {now : ℕ} {s : State σ} {e : Entry} {l : List Entry} (hl : s.after = e :: l)
    (hack : e.header.ack = false) (hdst : e.phase = .waitForAck → e.header.destination ≠ 0)
    (h : broadcast s.log ++ waitingEvents s.after = published s.log) :
    broadcast (visit a cfg now e s).log ++ waitingEvents (visit a cfg now e s).after = published (visit a cfg now e s).log := by
  obtain ⟨cs, o1, o2, kept, l', x', hsh, hv⟩ := visit_shape a cfg now s e l hl
  rw [hv]
  rw [hl] at h
  simp only [broadcast_append, published_append, waitingEvents_append, waitingEvents_messages, broadcast_issues, ← h]
  have hcons : waitingEvents (e :: l) = (if e.phase = .transmissionPending ∧ e.header.destination = 0 ∧
      e.header.kind = .request then [(e.header, e.payload)] else []) ++ waitingEvents l := by
    simp only [waitingEvents, List.filterMap_cons]
    split_ifs <;> rfl
  rw [hcons]
  have b1 : ∀ h p l, broadcast (.delivered h p :: l) = broadcast l := fun _ _ _ => rfl
  have b2 : ∀ k h p l, broadcast (.called k h p :: l) = broadcast l := fun _ _ _ _ => rfl
  have p1 : ∀ h p l, published (.delivered h p :: l) = published l := fun _ _ _ => rfl
  have p2 : ∀ k h p l, published (.called k h p :: l) = published l := fun _ _ _ _ => rfl
  have p3 : ∀ t h p l, published (.sent t h p :: l) = published l := fun _ _ _ _ => rfl
  have i0 : published (issues []) = [] := rfl
  cases hsh with
  | innerAnswer i k q hp hd hv hk hi hw hc =>
    rw [waitingEvents_eraseIdx hi (isWaitingFor_phase hw)]
    simp [broadcast_sent, broadcast_nil, published_nil, b2, p2, p3, hk]
  | innerDrop i q hp hd hv hk hi hw hc =>
    rw [waitingEvents_eraseIdx hi (isWaitingFor_phase hw)]
    simp [broadcast_sent, broadcast_nil, published_nil, p3, hk, i0]
  | event hp hd =>
    simp only [broadcast_sent, broadcast_nil, published_nil, b1, p1, p3, hp, hd, hack, true_and, and_true, List.append_nil,
      List.nil_append, List.append_assoc]
  | innerCall k hp hd hv hk hc =>
    have h0 : waitingEvents (⟨e.callback, e.header, e.payload, .waitForResponse,
        Modm.Timer.restart 65536 now cfg.responseTimeout e.time, e.tries⟩ :: l) = waitingEvents l := rfl
    simp only [h0, broadcast_sent, broadcast_nil, published_nil, b1, p1, p3, hd, false_and, and_false, if_false, List.append_nil,
      List.nil_append, List.append_assoc]
  | giveUp k hp ht hn hc =>
    simp [broadcast_nil, published_nil, b2, p2, hp]
  | retransmit hp ht hn =>
    simp only [broadcast_sent, broadcast_nil, published_nil, p3, i0, hp, hdst hp, false_and, and_false, if_false, List.append_nil,
      List.nil_append]
  | innerDefault hp hd hv hk hc =>
    simp only [broadcast_sent, broadcast_nil, published_nil, b1, p1, p3, hd, false_and, and_false, if_false, List.append_nil,
      List.nil_append, List.append_assoc]
  | transmit hp hd hv =>
    simp only [broadcast_sent, broadcast_nil, published_nil, p3, i0, hd, false_and, and_false, if_false, List.append_nil,
      List.nil_append]
  | innerNone hp hd hv hk =>
    simp only [broadcast_sent, broadcast_nil, published_nil, p3, i0, hd, false_and, and_false, if_false, List.append_nil,
      List.nil_append]
  | drop hp ht hn hc => simp [broadcast_nil, published_nil, i0, hp]
  | wait hp ht => simp [broadcast_nil, published_nil, i0, hp]
  | idle hp => simp [broadcast_nil, published_nil, i0, hp]

private theorem waitingEvents_middle (l1 l2 : List Entry) {e : Entry} (he : e.header.destination ≠ 0) :
    waitingEvents (l1 ++ e :: l2) = waitingEvents (l1 ++ l2) := by
  have : ¬ (e.phase = .transmissionPending ∧ e.header.destination = 0 ∧ e.header.kind = .request) := fun h => he h.2.1
  simp only [waitingEvents, List.filterMap_append, List.filterMap_cons, if_neg this]

/-- Reception keeps the order. -/
private theorem receive_events {now : ℕ} {s : State σ} {h : Header} {p : Payload} (hsrc : h.source ≠ 0)
    (hi : broadcast s.log ++ waitingEvents (s.before ++ s.after) = published s.log) :
    broadcast (updateOnceRx a now h p s).log ++
      waitingEvents ((updateOnceRx a now h p s).before ++ (updateOnceRx a now h p s).after) =
      published (updateOnceRx a now h p s).log := by
  have b0 : ∀ h p l, broadcast (.received h p :: l) = broadcast l := fun _ _ _ => rfl
  have b1 : ∀ h p l, broadcast (.delivered h p :: l) = broadcast l := fun _ _ _ => rfl
  have b2 : ∀ k h p l, broadcast (.called k h p :: l) = broadcast l := fun _ _ _ _ => rfl
  have p0 : ∀ h p l, published (.received h p :: l) = published l := fun _ _ _ => rfl
  have p1 : ∀ h p l, published (.delivered h p :: l) = published l := fun _ _ _ => rfl
  have p2 : ∀ k h p l, published (.called k h p :: l) = published l := fun _ _ _ _ => rfl
  by_cases hr : h.kind = .request ∧ h.ack = false
  · obtain ⟨-, e1, e2, -, e3⟩ := updateOnceRx_request a now h p s hr _ _ rfl
    rw [e1, e2, e3, broadcast_append, published_append, broadcast_ite, published_ite]
    rw [waitingEvents_append] at hi
    simp only [executeAll_lists, observe, broadcast_append, published_append, b0, b1, p0, p1,
      broadcast_issues, broadcast_nil, published_nil, List.append_nil, ← hi, waitingEvents_append, waitingEvents_responses,
      waitingEvents_messages, List.nil_append, List.append_assoc]
  · rcases handleFrom_cases a h p s.app (s.log ++ [.received h p]) [] (s.before ++ s.after) with
      ⟨h1, h2⟩ | ⟨l1, e, l2, h1, h2, h3, h4⟩
    · obtain ⟨-, e1, e2, -, e3⟩ := updateOnceRx_other a now h p s hr _ _ h2
      rw [e1, e2, e3]
      simp only [broadcast_append, published_append, broadcast_ite, published_ite, b0, p0, broadcast_nil, published_nil,
        List.append_nil, List.nil_append, hi]
    · rw [List.nil_append] at h4
      have hdst : e.header.destination ≠ 0 := by rw [← (fits_answers h2).1]; exact hsrc
      rw [h1, waitingEvents_middle l1 l2 hdst] at hi
      cases hc : e.callback with
      | none =>
        obtain ⟨-, e1, e2, -, e3⟩ := updateOnceRx_other a now h p s hr _ _
          (h4.trans (handleFrom_default a h p _ _ l1 l2 e h2 hc))
        rw [e1, e2, e3]
        simp only [broadcast_append, published_append, broadcast_ite, published_ite, b0, p0, broadcast_nil, published_nil,
          List.append_nil, hi]
      | some k =>
        by_cases hk : h.kind = .request
        · have ha : h.ack = true := by
            cases hh : h.ack with
            | true => rfl
            | false => exact absurd ⟨hk, hh⟩ hr
          obtain ⟨-, e1, e2, -, e3⟩ := updateOnceRx_other a now h p s hr _ _
            (h4.trans (handleFrom_ack a h p _ _ l1 l2 e k h2 hc hk ha))
          rw [e1, e2, e3]
          rw [waitingEvents_middle l1 l2 (e := ⟨e.callback, e.header, e.payload, .waitForResponse, e.time, e.tries⟩) hdst]
          simp only [broadcast_append, published_append, broadcast_ite, published_ite, b0, p0, broadcast_nil, published_nil,
            List.append_nil, hi]
        · cases ha : h.ack with
          | true =>
            obtain ⟨-, e1, e2, -, e3⟩ := updateOnceRx_other a now h p s hr _ _
              (h4.trans (handleFrom_ackResponse a h p _ _ l1 l2 e k h2 hc hk ha))
            rw [e1, e2, e3]
            simp only [broadcast_append, published_append, broadcast_ite, published_ite, b0, p0, broadcast_nil, published_nil,
              List.append_nil, hi]
          | false =>
            obtain ⟨-, e1, e2, -, e3⟩ := updateOnceRx_other a now h p s hr _ _
              (h4.trans (handleFrom_response a h p _ _ l1 l2 e k h2 hc hk ha))
            rw [e1, e2, e3]
            rw [waitingEvents_append] at hi
            simp only [removeCurrent, executeAll_lists, broadcast_append, published_append, broadcast_ite, published_ite, b0, b2,
              p0, p2, broadcast_issues, broadcast_nil, published_nil, List.append_nil, ← hi, waitingEvents_append,
              waitingEvents_responses, waitingEvents_messages, List.nil_append, List.append_assoc, List.cons_append,
              List.tail_cons]

private theorem receiveAll_events {now : ℕ} (packets : List (Header × Payload)) {s : State σ}
    (hsrc : ∀ hp ∈ packets, hp.1.source ≠ 0)
    (hi : broadcast s.log ++ waitingEvents (s.before ++ s.after) = published s.log) :
    broadcast (packets.foldl (fun s hp => updateOnceRx a now hp.1 hp.2 s) s).log ++
      waitingEvents ((packets.foldl (fun s hp => updateOnceRx a now hp.1 hp.2 s) s).before ++
        (packets.foldl (fun s hp => updateOnceRx a now hp.1 hp.2 s) s).after) =
      published (packets.foldl (fun s hp => updateOnceRx a now hp.1 hp.2 s) s).log := by
  induction packets generalizing s with
  | nil => exact hi
  | cons hp ps ih =>
    rw [List.foldl_cons]
    exact ih (fun q hq => hsrc q (List.mem_cons_of_mem _ hq)) (receive_events (hsrc hp List.mem_cons_self) hi)

private theorem visitAll_events {now t : ℕ} {s s' : State σ} (h : visitAll a cfg now fuel s = some s')
    (hreach : Reach a cfg (fun _ _ => True) t (bag s) s.log)
    (hi : broadcast s.log ++ waitingEvents s.after = published s.log) : broadcast s'.log = published s'.log := by
  induction fuel generalizing s t with
  | zero => exact absurd h (by simp [visitAll])
  | succ fuel ih =>
    rw [visitAll] at h
    cases hl : s.after with
    | nil =>
      rw [hl] at h hi; cases h
      simpa [waitingEvents] using hi
    | cons e l =>
      rw [hl] at h
      have hm : e ∈ bag s := by rw [bag, hl]; simp
      exact ih h (hreach.move trivial (visit_move a cfg now s e l hl)) (visit_events hl (hreach.not_ack e hm) (hreach.origin e hm).2 hi)

/-- The packets which arrive during some steps. -/
def packetsOf : List Step → List (Header × Payload)
  | [] => []
  | .command _ :: xs => packetsOf xs
  | .update _ ps :: xs => ps ++ packetsOf xs

private theorem execute_events {s : State σ} (c : Command)
    (hi : broadcast s.log ++ waitingEvents (s.before ++ s.after) = published s.log) :
    broadcast (execute s c).log ++ waitingEvents ((execute s c).before ++ (execute s c).after) = published (execute s c).log := by
  have h := executeAll_lists s [c]
  rw [show executeAll s [c] = execute s c from rfl] at h
  rw [h]
  rw [waitingEvents_append] at hi
  simp only [broadcast_append, published_append, broadcast_issues, List.append_nil, ← hi, waitingEvents_append,
    waitingEvents_responses, waitingEvents_messages, List.nil_append, List.append_assoc]

private theorem update_events {now t : ℕ} {packets : List (Header × Payload)} {s s' : State σ}
    (hu : update a cfg now fuel packets s = some s') (hsrc : ∀ hp ∈ packets, hp.1.source ≠ 0)
    (hreach : Reach a cfg (fun _ _ => True) t (bag s) s.log)
    (hi : broadcast s.log ++ waitingEvents (s.before ++ s.after) = published s.log) : broadcast s'.log = published s'.log := by
  obtain ⟨t', -, h2⟩ := receive_reach (R := fun _ _ => True) (fun _ => trivial) packets hreach (now := now) trivial
  exact visitAll_events (s := ⟨[], _, _, _⟩) hu h2 (receiveAll_events packets hsrc hi)

private theorem run_events {t : ℕ} {s s' : State σ} (h : run a cfg fuel s steps = some s')
    (hsrc : ∀ hp ∈ packetsOf steps, hp.1.source ≠ 0)
    (hreach : Reach a cfg (fun _ _ => True) t (bag s) s.log)
    (hi : broadcast s.log ++ waitingEvents (s.before ++ s.after) = published s.log) :
    broadcast s'.log ++ waitingEvents (s'.before ++ s'.after) = published s'.log := by
  induction steps generalizing s t with
  | nil => cases h; exact hi
  | cons y ys ih =>
    rw [run] at h
    cases y with
    | command c =>
      refine ih (s := execute s c) (t := t) h hsrc ?_ (execute_events c hi)
      rw [execute_bag, execute_log]
      exact hreach.issue c
    | update now packets =>
      rw [step] at h
      cases hu : update a cfg now fuel packets s with
      | none => rw [hu] at h; exact absurd h (by simp)
      | some u =>
        rw [hu] at h
        have hsrc' := fun hp hm => hsrc hp (List.mem_append_left _ hm)
        have he := update_events hu hsrc' hreach hi
        obtain ⟨t', -, h2⟩ := update_reach (R := fun _ _ => True) (fun _ => trivial) hreach trivial hu
        refine ih h (fun hp hm => hsrc hp (List.mem_append_right _ hm)) h2 ?_
        obtain ⟨g1, g2⟩ := visitAll_onlyResponses (s := ⟨[], _, _, _⟩) hu (fun e he => by simp at he)
        rw [g2, List.append_nil, waitingEvents_onlyResponses g1, List.append_nil]
        exact he

/-- **C127.**  When `update` returns, exactly the published events have been sent, each once and in the order in which they
were published, if no packet claims to come from component 0. -/
theorem C127_order {now : ℕ} {packets : List (Header × Payload)} {s' : State σ}
    (h : run a cfg fuel (init x) steps = some s) (hu : update a cfg now fuel packets s = some s')
    (hsrc : ∀ hp ∈ packetsOf steps ++ packets, hp.1.source ≠ 0) : broadcast s'.log = published s'.log := by
  obtain ⟨t, ht⟩ := run_init_reach h
  exact update_events hu (fun hp hm => hsrc hp (List.mem_append_right _ hm)) ht
    (run_events h (fun hp hm => hsrc hp (List.mem_append_left _ hm)) (s := init x) (t := 0) Reach.init rfl)

example : (∀ hp ∈ packetsOf demoSteps ++ [], hp.1.source ≠ 0) ∧ broadcast demoLast.log = [(⟨.request, false, 0, 1, 6⟩, [1])] := by
  decide +kernel

/-! ## The time between two transmissions -/

private theorem sendTimes_append (h : Header) (p : Payload) (l m : List Obs) :
    sendTimes h p (l ++ m) = sendTimes h p l ++ sendTimes h p m := by
  simp [sendTimes]

private theorem sendTimes_sent (h : Header) (p : Payload) (t : ℕ) : sendTimes h p [.sent t h p] = [t] := by
  simp [sendTimes]

private theorem sendTimes_ne {h h' : Header} {p p' : Payload} (t : ℕ) (hn : ¬ (h' = h ∧ p' = p)) :
    sendTimes h p [.sent t h' p'] = [] := by
  simp [sendTimes, hn]

/-- The timeout of an entry waiting for an acknowledge was started when it was sent last. -/
private def spaced (cfg : Config) (hd : Header) (p : Payload) (t : ℕ) (b : Multiset Entry) (log : List Obs) : Prop :=
  ordered hd p log ≤ 1 →
    b.countP (fun e => e.header = hd ∧ e.payload = p) ≤ ordered hd p log ∧
    (ordered hd p log = 0 → sendTimes hd p log = []) ∧
    (sendTimes hd p log).IsChain (fun t1 t2 => t1 + cfg.acknowledgeTimeout ≤ t2) ∧
    ∀ e ∈ b, e.header = hd ∧ e.payload = p →
      (e.phase = .transmissionPending → sendTimes hd p log = []) ∧
      (e.phase = .waitForAck → ∃ t', (sendTimes hd p log).getLast? = some t' ∧ t' ≤ t ∧
        e.time = ⟨t' % 65536, cfg.acknowledgeTimeout, Modm.Timer.ARMED⟩)

private theorem spaced_time {hd : Header} {p : Payload} {t now : ℕ} {b : Multiset Entry} {log : List Obs} (ht : t ≤ now)
    (h : spaced cfg hd p t b log) : spaced cfg hd p now b log := by
  intro ho
  obtain ⟨h1, h2, h3, h4⟩ := h ho
  refine ⟨h1, h2, h3, fun e he hm => ⟨(h4 e he hm).1, fun hp => ?_⟩⟩
  obtain ⟨t', g1, g2, g3⟩ := (h4 e he hm).2 hp
  exact ⟨t', g1, le_trans g2 ht, g3⟩

private theorem spaced_obs {hd : Header} {p : Payload} {t : ℕ} {b : Multiset Entry} {log m : List Obs}
    (h : spaced cfg hd p t b log) (h1 : ordered hd p m = 0) (h2 : sendTimes hd p m = []) : spaced cfg hd p t b (log ++ m) := by
  intro ho
  rw [ordered_append, h1, Nat.add_zero] at ho ⊢
  rw [sendTimes_append, h2, List.append_nil]
  exact h ho

private theorem spaced_issue {hd : Header} {p : Payload} {t : ℕ} {b : Multiset Entry} {log : List Obs} (c : Command)
    (h : spaced cfg hd p t b log) : spaced cfg hd p t (b + {newEntry c}) (log ++ [.issued c]) := by
  intro ho
  have hs : sendTimes hd p [.issued c] = [] := by simp [sendTimes]
  rw [ordered_append] at ho ⊢
  rw [sendTimes_append, hs, List.append_nil]
  obtain ⟨h1, h2, h3, h4⟩ := h (by omega)
  have hm : ((newEntry c).header = hd ∧ (newEntry c).payload = p) ↔ message c = (hd, p) := by
    simp only [newEntry, entry, Prod.ext_iff]
  refine ⟨?_, fun h0 => h2 (by omega), h3, ?_⟩
  · rw [Multiset.countP_add, ordered_cons_issued, ordered_nil, Nat.add_zero, ← Multiset.cons_zero, Multiset.countP_cons,
      Multiset.countP_zero, Nat.zero_add]
    simp only [hm]
    omega
  · intro e he hme
    rcases Multiset.mem_add.mp he with he | he
    · exact h4 e he hme
    · rw [Multiset.mem_singleton] at he; subst he
      rw [hm] at hme
      rw [ordered_cons_issued, if_pos hme, ordered_nil] at ho
      exact ⟨fun _ => h2 (by omega), fun h => by simp [newEntry, entry] at h⟩

private theorem spaced_issues {hd : Header} {p : Payload} {t : ℕ} {b : Multiset Entry} {log : List Obs} (cs : List Command)
    (h : spaced cfg hd p t b log) : spaced cfg hd p t (b + news cs) (log ++ issues cs) := by
  induction cs generalizing b log with
  | nil => simpa [news, issues] using h
  | cons c cs ih =>
    have := ih (spaced_issue c h)
    rw [show news (c :: cs) = {newEntry c} + news cs from rfl, ← add_assoc,
      show issues (c :: cs) = [.issued c] ++ issues cs from rfl, ← List.append_assoc]
    exact this

private theorem spaced_drop {hd : Header} {p : Payload} {t : ℕ} {b : Multiset Entry} {log : List Obs} {e : Entry}
    (h : spaced cfg hd p t (e ::ₘ b) log) : spaced cfg hd p t b log := by
  intro ho
  obtain ⟨h1, h2, h3, h4⟩ := h ho
  refine ⟨le_trans ?_ h1, h2, h3, fun e' he' => h4 e' (Multiset.mem_cons_of_mem he')⟩
  rw [Multiset.countP_cons]; omega

private theorem spaced_mark {hd : Header} {p : Payload} {t : ℕ} {b : Multiset Entry} {log : List Obs} {e e' : Entry}
    (h : spaced cfg hd p t (e ::ₘ b) log) (h1 : e'.header = e.header) (h2 : e'.payload = e.payload)
    (h3 : e'.phase = .waitForResponse) : spaced cfg hd p t (e' ::ₘ b) log := by
  intro ho
  obtain ⟨g1, g2, g3, g4⟩ := h ho
  refine ⟨?_, g2, g3, ?_⟩
  · rw [Multiset.countP_cons] at g1 ⊢; rw [h1, h2]; exact g1
  · intro e1 he1 hm
    rcases Multiset.mem_cons.mp he1 with rfl | he1
    · rw [h3]; exact ⟨fun h => by simp at h, fun h => by simp at h⟩
    · exact g4 e1 (Multiset.mem_cons_of_mem he1) hm

/-- An entry which is sent is the only one. -/
private theorem spaced_alone {hd : Header} {p : Payload} {t : ℕ} {b : Multiset Entry} {log : List Obs} {e : Entry}
    (h : spaced cfg hd p t (e ::ₘ b) log) (ho : ordered hd p log ≤ 1) (hm : e.header = hd ∧ e.payload = p) :
    ∀ e' ∈ b, ¬ (e'.header = hd ∧ e'.payload = p) := by
  obtain ⟨h1, -, -, -⟩ := h ho
  rw [Multiset.countP_cons, if_pos hm] at h1
  intro e' he' hm'
  have : 0 < b.countP (fun e => e.header = hd ∧ e.payload = p) := Multiset.countP_pos.mpr ⟨e', he', hm'⟩
  omega

private theorem spaced_send {hd : Header} {p : Payload} {t now : ℕ} {b : Multiset Entry} {log : List Obs} {e e' : Entry}
    (h : spaced cfg hd p t (e ::ₘ b) log) (ht : t ≤ now)
    (hp : e.phase = .transmissionPending ∨ (e.phase = .waitForAck ∧ (Modm.Timer.isExpired 65536 now e.time).2 = true))
    (h1 : e'.header = e.header) (h2 : e'.payload = e.payload)
    (h3 : e'.phase = .waitForResponse ∨ (e'.phase = .waitForAck ∧ e'.time = ⟨now % 65536, cfg.acknowledgeTimeout, Modm.Timer.ARMED⟩)) :
    spaced cfg hd p now (e' ::ₘ b) (log ++ [.sent now e.header e.payload]) := by
  by_cases hm : e.header = hd ∧ e.payload = p
  · intro ho
    rw [ordered_append, ordered_cons_sent, ordered_nil, Nat.add_zero] at ho ⊢
    obtain ⟨g1, g2, g3, g4⟩ := h ho
    have hal := spaced_alone h ho hm
    have hlog : sendTimes hd p (log ++ [.sent now e.header e.payload]) = sendTimes hd p log ++ [now] := by
      rw [sendTimes_append, hm.1, hm.2, sendTimes_sent]
    rw [hlog]
    refine ⟨?_, ?_, ?_, ?_⟩
    · rw [Multiset.countP_cons] at g1 ⊢; rw [h1, h2]; exact g1
    · intro h0
      rw [Multiset.countP_cons, if_pos hm] at g1; omega
    · rw [List.isChain_append]
      refine ⟨g3, by simp, ?_⟩
      intro x hx y hy
      simp only [List.head?_cons, Option.mem_def, Option.some.injEq] at hy
      subst hy
      rcases hp with hp | ⟨hp, hex⟩
      · rw [(g4 e (Multiset.mem_cons_self _ _) hm).1 hp] at hx; simp at hx
      · obtain ⟨t', k1, k2, k3⟩ := (g4 e (Multiset.mem_cons_self _ _) hm).2 hp
        rw [k1, Option.mem_def, Option.some.injEq] at hx
        subst hx
        rw [k3] at hex
        exact expired_le hex (le_trans k2 ht)
    · intro e1 he1 hm1
      rcases Multiset.mem_cons.mp he1 with rfl | he1
      · rcases h3 with h3 | ⟨h3, h4⟩
        · rw [h3]; exact ⟨fun h => by simp at h, fun h => by simp at h⟩
        · refine ⟨fun h => by rw [h3] at h; simp at h, fun _ => ⟨now, by simp, le_rfl, h4⟩⟩
      · exact absurd hm1 (hal e1 he1)
  · have g := spaced_time ht (spaced_obs h (m := [.sent now e.header e.payload]) (by simp) (sendTimes_ne now hm))
    intro ho
    obtain ⟨g1, g2, g3, g4⟩ := g ho
    refine ⟨?_, g2, g3, ?_⟩
    · rw [Multiset.countP_cons] at g1 ⊢; rw [h1, h2]; exact g1
    · intro e1 he1 hm1
      rcases Multiset.mem_cons.mp he1 with rfl | he1
      · rw [h1, h2] at hm1; exact absurd hm1 hm
      · exact g4 e1 (Multiset.mem_cons_of_mem he1) hm1

private theorem spaced_acks {hd : Header} {p : Payload} {t now : ℕ} {b : Multiset Entry} {log : List Obs} {h : Header} {c : Prop}
    [Decidable c] (hh : hd.ack = false) (hs : spaced cfg hd p t b log) :
    spaced cfg hd p t b (log ++ if c then [.sent now (ackOf h) []] else []) := by
  refine spaced_obs hs ?_ ?_
  · exact ordered_ite hd p c now h
  · by_cases hc : c
    · rw [if_pos hc]
      refine sendTimes_ne now fun hn => ?_
      rw [← hn.1] at hh
      simp [ackOf] at hh
    · rw [if_neg hc]; rfl

private theorem reach_spaced {t : ℕ} {b : Multiset Entry} {log : List Obs} (hd : Header) (p : Payload) (hh : hd.ack = false)
    (h : Reach a cfg (· ≤ ·) t b log) : spaced cfg hd p t b log := by
  induction h with
  | init => intro _; exact ⟨by simp, by simp [sendTimes], by simp [sendTimes], by simp⟩
  | issue c h ih => exact spaced_issue c ih
  | move h ht m ih =>
    replace ih := spaced_time ht ih
    cases m with
    | rxRequest ok hk ha happ =>
      rw [← List.append_assoc, ← List.append_assoc]
      exact spaced_acks hh (spaced_issues _ (spaced_obs ih (by simp) rfl))
    | rxNone hr hn => rw [← List.append_assoc]; exact spaced_acks hh (spaced_obs ih (by simp) rfl)
    | rxDefault e hr hf hc => rw [← List.append_assoc]; exact spaced_acks hh (spaced_obs (spaced_drop ih) (by simp) rfl)
    | rxAck e k hk ha hf hc => exact spaced_obs (spaced_mark ih rfl rfl rfl) (by simp) rfl
    | rxAckResponse e k hk ha hf hc => exact spaced_obs (spaced_drop ih) (by simp) rfl
    | rxResponse e k hk ha hf hc =>
      rw [← List.append_assoc, ← List.append_assoc]
      exact spaced_acks hh (spaced_issues _ (spaced_obs (spaced_drop ih) (by simp) rfl))
    | @event b0 log0 cs e hp hd =>
      rw [← List.append_assoc, ← List.append_assoc]
      have := spaced_issues cs (spaced_obs (m := [.delivered e.header e.payload]) ih (by simp) rfl)
      rw [Multiset.cons_add] at this
      exact spaced_drop (spaced_send (e' := ⟨e.callback, e.header, e.payload, .waitForResponse, e.time, e.tries⟩) this le_rfl
        (Or.inl hp) rfl rfl (Or.inl rfl))
    | innerCall e k hp hd hv hk hc =>
      rw [← List.append_assoc, ← Multiset.cons_add]
      refine spaced_issues _ ?_
      have := spaced_send (e' := ⟨e.callback, e.header, e.payload, .waitForResponse, e.time, e.tries⟩) ih le_rfl
        (Or.inl hp) rfl rfl (Or.inl rfl)
      have := spaced_obs (m := [.delivered e.header e.payload]) this (by simp) rfl
      rw [List.append_assoc] at this
      exact spaced_mark this rfl rfl rfl
    | innerDefault e hp hd hv hk hc =>
      rw [← List.append_assoc]
      refine spaced_issues _ ?_
      have := spaced_send (e' := ⟨e.callback, e.header, e.payload, .waitForResponse, e.time, e.tries⟩) ih le_rfl
        (Or.inl hp) rfl rfl (Or.inl rfl)
      have := spaced_obs (m := [.delivered e.header e.payload]) this (by simp) rfl
      rw [List.append_assoc] at this
      exact spaced_drop this
    | innerAnswer e q k hp hd hv hk hq hc =>
      rw [← List.append_assoc]
      refine spaced_issues _ ?_
      have := spaced_send (e' := ⟨e.callback, e.header, e.payload, .waitForResponse, e.time, e.tries⟩) ih le_rfl
        (Or.inl hp) rfl rfl (Or.inl rfl)
      have := spaced_obs (m := [.called k e.header e.payload]) this (by simp) rfl
      rw [List.append_assoc] at this
      exact spaced_drop (spaced_drop this)
    | innerDrop e q hp hd hv hk hq hc =>
      exact spaced_drop (spaced_drop (spaced_send (e' := ⟨e.callback, e.header, e.payload, .waitForResponse, e.time, e.tries⟩) ih
        le_rfl (Or.inl hp) rfl rfl (Or.inl rfl)))
    | innerNone e hp hd hv hk =>
      exact spaced_drop (spaced_send (e' := ⟨e.callback, e.header, e.payload, .waitForResponse, e.time, e.tries⟩) ih
        le_rfl (Or.inl hp) rfl rfl (Or.inl rfl))
    | transmit e hp hd hv => exact spaced_send ih le_rfl (Or.inl hp) rfl rfl (Or.inr ⟨rfl, rfl⟩)
    | giveUp e k hp ht hn hc =>
      rw [← List.append_assoc]
      exact spaced_issues _ (spaced_obs (spaced_drop ih) (by simp) rfl)
    | drop e hp ht hn hc => exact spaced_drop ih
    | retransmit e hp ht hn => exact spaced_send ih le_rfl (Or.inr ⟨hp, ht⟩) rfl rfl (Or.inr ⟨rfl, rfl⟩)
    | wait e hp ht =>
      intro ho
      obtain ⟨g1, g2, g3, g4⟩ := ih ho
      refine ⟨?_, g2, g3, ?_⟩
      · rw [Multiset.countP_cons] at g1 ⊢; exact g1
      · intro e1 he1 hm1
        rcases Multiset.mem_cons.mp he1 with rfl | he1
        · obtain ⟨k1, k2⟩ := g4 e (Multiset.mem_cons_self _ _) hm1
          refine ⟨k1, fun _ => ?_⟩
          obtain ⟨t', j1, j2, j3⟩ := k2 hp
          refine ⟨t', j1, j2, ?_⟩
          rw [j3] at ht ⊢
          exact not_expired ht
        · exact g4 e1 (Multiset.mem_cons_of_mem he1) hm1
    | idle => exact ih

/-- **C124.**  If the clock does not go backwards, a packet ordered once is not sent again before the timeout for the
acknowledge has passed. -/
theorem C124_spacing (h : run a cfg fuel (init x) steps = some s) (hclock : (Step.times steps).IsChain (· ≤ ·))
    (hd : Header) (p : Payload) (hh : hd.ack = false) (ho : ordered hd p s.log ≤ 1) :
    (sendTimes hd p s.log).IsChain (fun t1 t2 => t1 + cfg.acknowledgeTimeout ≤ t2) := by
  obtain ⟨t, ht⟩ := run_reach_le (s := init x) (t := 0) Reach.init (by
    cases hs : Step.times steps with
    | nil => simp
    | cons u us => rw [hs] at hclock; rw [List.isChain_cons_cons]; exact ⟨Nat.zero_le _, hclock⟩) h
  exact (reach_spaced hd p hh ht ho).2.2.1

example : (Step.times demoSteps).IsChain (· ≤ ·) ∧ ordered ⟨.request, false, 4, 2, 9⟩ [1] demoState.log ≤ 1 ∧
    sendTimes ⟨.request, false, 4, 2, 9⟩ [1] demoState.log = [0, 120, 240] := by
  decide +kernel

end Props.Dispatcher
