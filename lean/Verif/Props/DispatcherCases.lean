import Verif.Props.DispatcherTime

set_option autoImplicit false

/-!
# C123–C127: what the dispatcher does not do, and when a caller hears that nobody answers
-/

namespace Props.Dispatcher

open Modm.Dispatcher Modm.Spec.Dispatcher

variable {σ : Type} {a : App σ} {cfg : Config} {fuel : ℕ} {steps : List Step} {x : σ} {s : State σ}

/-! ## The time line -/

def lonely : List Step := [.update 0 [], .update 10 [], .update 60 [], .update 130 [(⟨.request, false, 0, 9, 3⟩, [])], .update 240 [],
  .update 300 [], .update 500 []]

def lonelyStart : State Unit :=
  (run demo ⟨100, 200⟩ 20 (init ()) [.command (.publishEvent 2 5 [])]).getD (init ())

def lonelyFirst : State Unit := (step demo ⟨100, 200⟩ 20 lonelyStart (.command (.callAction 1 3 8 [7] (some 4)))).getD (init ())

def lonelyEnd : State Unit := (run demo ⟨100, 200⟩ 20 lonelyFirst lonely).getD (init ())

private theorem all_issued {log : List Obs} {f : Command → Bool}
    (h : (log.all fun o => match o with | .issued c => f c | _ => true) = true) :
    ∀ c, .issued c ∈ log → f c = true := by
  intro c hm
  exact List.all_eq_true.mp h _ hm

private theorem all_received' {log : List Obs} {f : Header → Payload → Bool}
    (h : (log.all fun o => match o with | .received h p => f h p | _ => true) = true) :
    ∀ h p, .received h p ∈ log → f h p = true := by
  intro h' p hm
  exact List.all_eq_true.mp h _ hm

theorem lonely_alone : Alone ⟨.request, false, 3, 1, 8⟩ (some 4) (.callAction 1 3 8 [7] (some 4)) lonelyEnd.log := by
  refine ⟨by decide +kernel, fun c hc hor => ?_, fun c hc => ?_, fun h p hm => ?_⟩
  · have := all_issued (f := fun c => decide (((message c).1 = ⟨.request, false, 3, 1, 8⟩ ∨ callbackOf c = some 4) →
      c = .callAction 1 3 8 [7] (some 4))) (log := lonelyEnd.log) (by decide +kernel) c hc
    simp only [decide_eq_true_eq] at this
    exact this (hor.imp id fun h => h.2)
  · have := all_issued (f := fun c => !decide (answers (message c).1 ⟨.request, false, 3, 1, 8⟩)) (log := lonelyEnd.log)
      (by decide +kernel) c hc
    simpa using this
  · have := all_received' (f := fun h _ => !decide (answers h ⟨.request, false, 3, 1, 8⟩)) (log := lonelyEnd.log)
      (by decide +kernel) h p hm
    simpa using this

example : story ⟨.request, false, 3, 1, 8⟩ (some 4) lonelyEnd.log =
    [.sent 0 ⟨.request, false, 3, 1, 8⟩ [7], .sent 130 ⟨.request, false, 3, 1, 8⟩ [7], .sent 240 ⟨.request, false, 3, 1, 8⟩ [7],
      .called 4 ⟨.timeout, false, 3, 1, 8⟩ [7]] := by
  rw [C125_timeline (a := demo) (cfg := ⟨100, 200⟩) (fuel := 20) (x := ()) (s0 := lonelyStart) (s1 := lonelyFirst) (s' := lonelyEnd)
    (pre := [.command (.publishEvent 2 5 [])]) (y := .command (.callAction 1 3 8 [7] (some 4))) (rest := lonely)
    (q := [7])
    (by decide) rfl (by decide +kernel) (by decide +kernel) (by decide +kernel) (by decide +kernel) (by decide +kernel)
    (by unfold gap; decide +kernel) lonely_alone]
  decide +kernel

private theorem resend_told {T : ℕ} {hd : Header} {p : Payload} {k : ℕ} :
    ∀ {n last : ℕ} {us vs : List ℕ}, us.Pairwise (· ≤ ·) → vs.Sublist us → vs.length = n + 1 →
      (last :: vs).IsChain (fun u v => u + T ≤ v) → Obs.called k (timeoutOf hd) p ∈ resend T hd p (some k) last n us := by
  intro n last us
  induction us generalizing n last with
  | nil =>
    intro vs _ hsub hlen _
    rw [List.sublist_nil.mp hsub] at hlen
    simp at hlen
  | cons u us ih =>
    intro vs hmono hsub hlen hch
    obtain ⟨v, vs', rfl⟩ : ∃ v vs', vs = v :: vs' := by
      cases vs with
      | nil => simp at hlen
      | cons v vs' => exact ⟨v, vs', rfl⟩
    have hmono' := (List.pairwise_cons.mp hmono).2
    have hfirst := (List.pairwise_cons.mp hmono).1
    rw [List.isChain_cons_cons] at hch
    unfold resend
    by_cases hu : last + T ≤ u
    · rw [if_pos hu]
      cases n with
      | zero => simp
      | succ n =>
        refine List.mem_cons_of_mem _ ?_
        -- the first of the chosen times is not before `u`
        have huv : u ≤ v := by
          rcases List.mem_cons.mp (hsub.subset (List.mem_cons_self ..)) with h | h
          · exact h.ge
          · exact hfirst v h
        have hsub' : vs'.Sublist us := by
          have := hsub.tail
          simpa using this
        obtain ⟨w, vs'', rfl⟩ : ∃ w vs'', vs' = w :: vs'' := by
          cases vs' with
          | nil => simp at hlen
          | cons w vs'' => exact ⟨w, vs'', rfl⟩
        refine ih hmono' hsub' (by simpa using hlen) ?_
        have h2 := hch.2
        rw [List.isChain_cons_cons] at h2 ⊢
        exact ⟨by omega, h2.2⟩
    · rw [if_neg hu]
      have hne : v ≠ u := by
        rintro rfl
        exact hu hch.1
      refine ih hmono' (vs := v :: vs') ?_ hlen (by rw [List.isChain_cons_cons]; exact hch)
      cases hsub with
      | cons _ h => exact h
      | cons_cons _ h => exact absurd rfl hne

/-- **C125.**  If nobody answers a call, then the caller is told: at the latest when `update` has been called at three times
after the first one, each the acknowledge timeout after the one before. -/
theorem C125_gives_up {own receiver action : Byte} {q : Payload} {k u : ℕ} {us vs : List ℕ} {pre rest : List Step} {y : Step}
    {s0 s1 s' : State σ}
    (hr : receiver ≠ 0) (hav : a.available receiver = false)
    (h0 : run a cfg fuel (init x) pre = some s0) (h1 : step a cfg fuel s0 y = some s1) (h2 : run a cfg fuel s1 rest = some s')
    (hnot : orderedOf ⟨.request, false, receiver, own, action⟩ s0.log = 0)
    (hcall : .issued (.callAction own receiver action q (some k)) ∈ s1.log)
    (hclock : (Step.times (y :: rest)).IsChain (gap cfg.acknowledgeTimeout))
    (hal : Alone ⟨.request, false, receiver, own, action⟩ (some k) (.callAction own receiver action q (some k)) s'.log)
    (htimes : Step.times (y :: rest) = u :: us) (hsub : vs.Sublist us) (hlen : vs.length = 3)
    (hvs : (u :: vs).IsChain fun u v => u + cfg.acknowledgeTimeout ≤ v) :
    .called k ⟨.timeout, false, receiver, own, action⟩ q ∈ s'.log := by
  have h := C125_timeline hr hav h0 h1 h2 hnot hcall hclock hal
  have hmono : (u :: us).Pairwise (· ≤ ·) := by
    rw [← List.isChain_iff_pairwise, ← htimes]
    exact hclock.imp fun _ _ h => h.1
  have hmem : Obs.called k (timeoutOf ⟨.request, false, receiver, own, action⟩) q ∈
      story ⟨.request, false, receiver, own, action⟩ (some k) s'.log := by
    rw [h, htimes, timeline]
    exact List.mem_cons_of_mem _ (resend_told (List.pairwise_cons.mp hmono).2 hsub hlen hvs)
  exact (List.mem_filter.mp hmem).1

example : Step.times (.command (.callAction 1 3 8 [7] (some 4)) :: lonely) = 0 :: [10, 60, 130, 240, 300, 500] ∧
    [130, 240, 500].Sublist [10, 60, 130, 240, 300, 500] ∧ [0, 130, 240, 500].IsChain (fun u v => u + 100 ≤ v) ∧
    .called 4 ⟨.timeout, false, 3, 1, 8⟩ [7] ∈ lonelyEnd.log :=
  ⟨by decide +kernel, by decide, by decide, by decide +kernel⟩

/-! ## No limit for the response -/

/-- **C125.**  The response has no time limit: once the call has been acknowledged, the caller waits for ever. -/
theorem C125_response_counterexample (times : List ℕ) :
    ∃ s, run demo ⟨100, 200⟩ 20 (init ()) ([.command (.callAction 1 3 8 [] (some 4)), .update 0 [],
        .update 1 [(⟨.request, true, 1, 3, 8⟩, [])]] ++ times.map fun u => .update u []) = some s ∧
      results 4 s.log = 0 := by
  have key : ∀ (times : List ℕ) (e : Entry) (log : List Obs), e.phase = .waitForResponse →
      run demo ⟨100, 200⟩ 20 ⟨[e], [], (), log⟩ (times.map fun u => .update u []) = some ⟨[e], [], (), log⟩ := by
    intro times e log he
    induction times with
    | nil => rfl
    | cons u us ih =>
      rw [List.map_cons, run]
      have : step demo ⟨100, 200⟩ 20 ⟨[e], [], (), log⟩ (.update u []) = some ⟨[e], [], (), log⟩ := by
        simp [step, update, handleWaitingMessages, visitAll, visit, he, advance]
      rw [this]
      exact ih
  exact ⟨_, key times ⟨some 4, ⟨.request, false, 3, 1, 8⟩, [], .waitForResponse, _, 0⟩ _ rfl, by decide +kernel⟩

/-- **C123.**  Two calls of the same action of a component on the board: the responses are handled in reverse order, so each
callback gets the response to the other call. -/
theorem C123_swap_counterexample : ∃ s, run demo ⟨100, 200⟩ 20 (init ())
      [.command (.callAction 1 2 7 [1] (some 1)), .command (.callAction 1 2 7 [2] (some 2)), .update 0 [], .update 1 []] = some s ∧
    .called 1 ⟨.response, false, 1, 2, 7⟩ [2] ∈ s.log ∧ .called 2 ⟨.response, false, 1, 2, 7⟩ [1] ∈ s.log ∧
    .called 1 ⟨.response, false, 1, 2, 7⟩ [1] ∉ s.log :=
  ⟨_, rfl, by decide +kernel, by decide +kernel, by decide +kernel⟩

/-! ## Acknowledges taken for others -/

/-- **C126.**  The acknowledge of a call which arrives twice removes the next call of the same action, which has not even been
sent. -/
theorem C126_duplicate_counterexample : ∃ s, run demo ⟨100, 200⟩ 20 (init ())
      [.command (.callAction 1 3 8 [1] none), .update 0 [], .update 1 [(⟨.request, true, 1, 3, 8⟩, [])],
        .command (.callAction 1 3 8 [2] none), .update 2 [(⟨.request, true, 1, 3, 8⟩, [])]] = some s ∧
    ordered ⟨.request, false, 3, 1, 8⟩ [2] s.log = 1 ∧ sendings ⟨.request, false, 3, 1, 8⟩ [2] s.log = 0 ∧
    s.before = [] ∧ s.after = [] :=
  ⟨_, rfl, by decide +kernel, by decide +kernel, rfl, rfl⟩

/-- **C126.**  The kind is not compared: the acknowledge of the call removes the response with the same number to the same
component.  The response, which has not been acknowledged, is not sent again, and the call, which has been, is. -/
theorem C126_kind_counterexample : ∃ s, run demo ⟨100, 200⟩ 20 (init ())
      [.command (.callAction 2 3 7 [1] none), .update 0 [(⟨.request, false, 2, 3, 7⟩, [9])],
        .update 1 [(⟨.request, true, 2, 3, 7⟩, [])], .update 101 [], .update 201 [], .update 301 []] = some s ∧
    arrivalsOf ⟨.response, true, 2, 3, 7⟩ s.log = 0 ∧
    sendTimes ⟨.response, false, 3, 2, 7⟩ [9] s.log = [0] ∧
    sendTimes ⟨.request, false, 3, 2, 7⟩ [1] s.log = [0, 101, 201] :=
  ⟨_, rfl, by decide +kernel, by decide +kernel, by decide +kernel⟩

/-- **C126.**  A call with a callback is forgotten when the acknowledge of a response arrives which fits; the callback is not
called. -/
theorem C126_forgotten_counterexample : ∃ s, run demo ⟨100, 200⟩ 20 (init ())
      [.command (.callAction 2 3 7 [1] (some 4)), .update 0 [], .update 1 [(⟨.response, true, 2, 3, 7⟩, [])]] = some s ∧
    calls 4 s.log = 1 ∧ results 4 s.log = 0 ∧ s.before = [] ∧ s.after = [] :=
  ⟨_, rfl, by decide +kernel, by decide +kernel, rfl, rfl⟩

/-- **C127.**  An acknowledge from the component 0, which no component is, removes an event before it is sent. -/
theorem C127_counterexample : ∃ s, run demo ⟨100, 200⟩ 20 (init ())
      [.command (.publishEvent 1 6 []), .update 0 [(⟨.request, true, 1, 0, 6⟩, [])]] = some s ∧
    ordered ⟨.request, false, 0, 1, 6⟩ [] s.log = 1 ∧ sendings ⟨.request, false, 0, 1, 6⟩ [] s.log = 0 ∧
    s.before = [] ∧ s.after = [] :=
  ⟨_, rfl, by decide +kernel, by decide +kernel, rfl, rfl⟩

/-- **C125.**  A call to the component 0 is handled as an event: the callback is never called, not even after a timeout. -/
theorem C125_broadcast_counterexample : ∃ s, run demo ⟨100, 200⟩ 20 (init ())
      [.command (.callAction 1 0 8 [] (some 4)), .update 0 []] = some s ∧
    calls 4 s.log = 1 ∧ results 4 s.log = 0 ∧ s.before = [] ∧ s.after = [] :=
  ⟨_, rfl, by decide +kernel, by decide +kernel, rfl, rfl⟩

end Props.Dispatcher
