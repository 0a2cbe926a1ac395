import Verif.Model.Dispatcher
import Mathlib.Algebra.Order.Group.Multiset
import Mathlib.Tactic.Common

set_option autoImplicit false

/-!
# The dispatcher as moves on a bag of entries

Every run of the dispatcher is a sequence of the moves below, in which the order of the entries does
not matter.  The properties of C122–C127 which do not depend on the order follow by induction over
the moves.
-/

namespace Modm.Dispatcher

open Modm.Spec.Dispatcher

variable {σ : Type}

/-- The entry of a command. -/
def newEntry (c : Command) : Entry := entry (message c).1 (message c).2 (callbackOf c)

def news (cs : List Command) : Multiset Entry := ↑(cs.map newEntry)

def issues (cs : List Command) : List Obs := cs.map .issued

/-- The entries, without order. -/
def bag (s : State σ) : Multiset Entry := ↑(s.before ++ s.after)

/-- The moves. -/
inductive Move (a : App σ) (cfg : Config) (now : ℕ) : Multiset Entry → List Obs → Multiset Entry → List Obs → Prop
  | rxRequest {b log h p cs} (ok : Bool) (hk : h.kind = .request) (ha : h.ack = false)
      (happ : ∃ x, ok = (a.deliver x h p).2.1) :
      Move a cfg now b log (b + news cs) (log ++ ([.received h p, .delivered h p] ++ issues cs ++
        if ok = true ∧ h.destination ≠ 0 then [.sent now (ackOf h) []] else []))
  | rxNone {b log h p} (hr : ¬ (h.kind = .request ∧ h.ack = false)) (hn : ∀ e ∈ b, e.headerFits h = false) :
      Move a cfg now b log b (log ++ ([.received h p] ++
        if h.ack = false ∧ h.destination ≠ 0 ∧ a.available h.destination = true then [.sent now (ackOf h) []] else []))
  | rxDefault {b log h p} (e : Entry) (hr : ¬ (h.kind = .request ∧ h.ack = false)) (hf : e.headerFits h = true)
      (hc : e.callback = none) :
      Move a cfg now (e ::ₘ b) log b (log ++ ([.received h p] ++
        if h.ack = false ∧ h.destination ≠ 0 ∧ a.available h.destination = true then [.sent now (ackOf h) []] else []))
  | rxAck {b log h p} (e : Entry) (k : ℕ) (hk : h.kind = .request) (ha : h.ack = true) (hf : e.headerFits h = true)
      (hc : e.callback = some k) :
      Move a cfg now (e ::ₘ b) log (⟨e.callback, e.header, e.payload, .waitForResponse, e.time, e.tries⟩ ::ₘ b)
        (log ++ [.received h p])
  | rxAckResponse {b log h p} (e : Entry) (k : ℕ) (hk : h.kind ≠ .request) (ha : h.ack = true)
      (hf : e.headerFits h = true) (hc : e.callback = some k) :
      Move a cfg now (e ::ₘ b) log b (log ++ [.received h p])
  | rxResponse {b log h p cs} (e : Entry) (k : ℕ) (hk : h.kind ≠ .request) (ha : h.ack = false)
      (hf : e.headerFits h = true) (hc : e.callback = some k) :
      Move a cfg now (e ::ₘ b) log (b + news cs) (log ++ ([.received h p, .called k h p] ++ issues cs ++
        if h.destination ≠ 0 then [.sent now (ackOf h) []] else []))
  | event {b log cs} (e : Entry) (hp : e.phase = .transmissionPending) (hd : e.header.destination = 0) :
      Move a cfg now (e ::ₘ b) log (b + news cs)
        (log ++ ([.delivered e.header e.payload] ++ issues cs ++ [.sent now e.header e.payload]))
  | innerCall {b log cs} (e : Entry) (k : ℕ) (hp : e.phase = .transmissionPending) (hd : e.header.destination ≠ 0)
      (hv : a.available e.header.destination = true) (hk : e.header.kind = .request) (hc : e.callback = some k) :
      Move a cfg now (e ::ₘ b) log
        (⟨e.callback, e.header, e.payload, .waitForResponse, Timer.restart 65536 now cfg.responseTimeout e.time, e.tries⟩ ::ₘ
          (b + news cs))
        (log ++ ([.sent now e.header e.payload, .delivered e.header e.payload] ++ issues cs))
  | innerDefault {b log cs} (e : Entry) (hp : e.phase = .transmissionPending) (hd : e.header.destination ≠ 0)
      (hv : a.available e.header.destination = true) (hk : e.header.kind = .request) (hc : e.callback = none) :
      Move a cfg now (e ::ₘ b) log (b + news cs)
        (log ++ ([.sent now e.header e.payload, .delivered e.header e.payload] ++ issues cs))
  | innerAnswer {b log cs} (e q : Entry) (k : ℕ) (hp : e.phase = .transmissionPending) (hd : e.header.destination ≠ 0)
      (hv : a.available e.header.destination = true) (hk : e.header.kind ≠ .request)
      (hq : q.isWaitingFor e.header = true) (hc : q.callback = some k) :
      Move a cfg now (e ::ₘ q ::ₘ b) log (b + news cs)
        (log ++ ([.sent now e.header e.payload, .called k e.header e.payload] ++ issues cs))
  | innerDrop {b log} (e q : Entry) (hp : e.phase = .transmissionPending) (hd : e.header.destination ≠ 0)
      (hv : a.available e.header.destination = true) (hk : e.header.kind ≠ .request)
      (hq : q.isWaitingFor e.header = true) (hc : q.callback = none) :
      Move a cfg now (e ::ₘ q ::ₘ b) log b (log ++ [.sent now e.header e.payload])
  | innerNone {b log} (e : Entry) (hp : e.phase = .transmissionPending) (hd : e.header.destination ≠ 0)
      (hv : a.available e.header.destination = true) (hk : e.header.kind ≠ .request) :
      Move a cfg now (e ::ₘ b) log b (log ++ [.sent now e.header e.payload])
  | transmit {b log} (e : Entry) (hp : e.phase = .transmissionPending) (hd : e.header.destination ≠ 0)
      (hv : a.available e.header.destination = false) :
      Move a cfg now (e ::ₘ b) log
        (⟨e.callback, e.header, e.payload, .waitForAck, Timer.restart 65536 now cfg.acknowledgeTimeout e.time, e.tries⟩ ::ₘ b)
        (log ++ [.sent now e.header e.payload])
  | giveUp {b log cs} (e : Entry) (k : ℕ) (hp : e.phase = .waitForAck) (ht : (Timer.isExpired 65536 now e.time).2 = true)
      (hn : 2 ≤ e.tries) (hc : e.callback = some k) :
      Move a cfg now (e ::ₘ b) log (b + news cs)
        (log ++ ([.called k ⟨.timeout, e.header.ack, e.header.destination, e.header.source, e.header.packet⟩ e.payload] ++ issues cs))
  | drop {b log} (e : Entry) (hp : e.phase = .waitForAck) (ht : (Timer.isExpired 65536 now e.time).2 = true)
      (hn : 2 ≤ e.tries) (hc : e.callback = none) :
      Move a cfg now (e ::ₘ b) log b log
  | retransmit {b log} (e : Entry) (hp : e.phase = .waitForAck) (ht : (Timer.isExpired 65536 now e.time).2 = true)
      (hn : e.tries < 2) :
      Move a cfg now (e ::ₘ b) log
        (⟨e.callback, e.header, e.payload, .waitForAck,
          Timer.restart 65536 now cfg.acknowledgeTimeout (Timer.isExpired 65536 now e.time).1, e.tries + 1⟩ ::ₘ b)
        (log ++ [.sent now e.header e.payload])
  | wait {b log} (e : Entry) (hp : e.phase = .waitForAck) (ht : (Timer.isExpired 65536 now e.time).2 = false) :
      Move a cfg now (e ::ₘ b) log
        (⟨e.callback, e.header, e.payload, e.phase, (Timer.isExpired 65536 now e.time).1, e.tries⟩ ::ₘ b) log
  | idle {b log} : Move a cfg now b log b log

theorem Move.cast {a : App σ} {cfg : Config} {now : ℕ} {b b1 b2 : Multiset Entry} {log log1 log2 : List Obs}
    (m : Move a cfg now b log b1 log1) (hb : b2 = b1) (hl : log2 = log1) : Move a cfg now b log b2 log2 := by
  rw [hb, hl]; exact m

/-- What a sequence of steps can lead to: `R` relates the times of consecutive moves. -/
inductive Reach (a : App σ) (cfg : Config) (R : ℕ → ℕ → Prop) : ℕ → Multiset Entry → List Obs → Prop
  | init : Reach a cfg R 0 0 []
  | issue {t b log} (c : Command) (h : Reach a cfg R t b log) :
      Reach a cfg R t (b + {newEntry c}) (log ++ [.issued c])
  | move {t now b log b' log'} (h : Reach a cfg R t b log) (ht : R t now) (m : Move a cfg now b log b' log') :
      Reach a cfg R now b' log'

/-! ## Commands -/

theorem execute_bag (s : State σ) (c : Command) : bag (execute s c) = bag s + {newEntry c} := by
  cases c <;> simp only [execute, observe, addMessage, addResponse, bag, newEntry, message, callbackOf]
  · rw [← List.append_assoc, ← Multiset.coe_add]; rfl
  · rw [← List.append_assoc, ← Multiset.coe_add]; rfl
  · rw [List.cons_append, ← Multiset.cons_coe, add_comm, Multiset.singleton_add]
  · rw [List.cons_append, ← Multiset.cons_coe, add_comm, Multiset.singleton_add]

theorem execute_log (s : State σ) (c : Command) : (execute s c).log = s.log ++ [.issued c] := by
  cases c <;> rfl

theorem execute_app (s : State σ) (c : Command) : (execute s c).app = s.app := by
  cases c <;> rfl

theorem execute_after (s : State σ) (c : Command) : ∃ l, (execute s c).after = s.after ++ l := by
  cases c <;> simp only [execute, observe, addMessage, addResponse]
  · exact ⟨_, rfl⟩
  · exact ⟨_, rfl⟩
  · exact ⟨[], by simp⟩
  · exact ⟨[], by simp⟩

theorem executeAll_bag (s : State σ) (cs : List Command) : bag (executeAll s cs) = bag s + news cs := by
  unfold executeAll
  induction cs generalizing s with
  | nil => simp [news]
  | cons c cs ih =>
    rw [List.foldl_cons, ih, execute_bag, add_assoc]
    rfl

theorem executeAll_log (s : State σ) (cs : List Command) : (executeAll s cs).log = s.log ++ issues cs := by
  unfold executeAll
  induction cs generalizing s with
  | nil => simp [issues]
  | cons c cs ih => rw [List.foldl_cons, ih, execute_log, List.append_assoc]; rfl

theorem executeAll_app (s : State σ) (cs : List Command) : (executeAll s cs).app = s.app := by
  unfold executeAll
  induction cs generalizing s with
  | nil => rfl
  | cons c cs ih => rw [List.foldl_cons, ih, execute_app]

theorem executeAll_after (s : State σ) (cs : List Command) : ∃ l, (executeAll s cs).after = s.after ++ l := by
  unfold executeAll
  induction cs generalizing s with
  | nil => exact ⟨[], by simp⟩
  | cons c cs ih =>
    obtain ⟨l, hl⟩ := execute_after s c
    obtain ⟨m, hm⟩ := ih (execute s c)
    exact ⟨l ++ m, by rw [List.foldl_cons, hm, hl, List.append_assoc]⟩

/-- Removing the entry at which the loop is. -/
theorem bag_remove {s : State σ} {e : Entry} {l : List Entry} (h : s.after = e :: l) :
    bag s = e ::ₘ bag (removeCurrent s) := by
  simp only [bag, removeCurrent, h, List.tail_cons, Multiset.cons_coe, Multiset.coe_eq_coe]
  exact List.perm_middle

theorem bag_advance {s : State σ} {e e' : Entry} {l : List Entry} (h : s.after = e :: l) :
    bag (advance e' s) = e' ::ₘ bag (removeCurrent s) := by
  simp only [bag, advance, removeCurrent, h, List.tail_cons, Multiset.cons_coe, Multiset.coe_eq_coe,
    List.append_assoc, List.singleton_append]
  exact List.perm_middle

/-- Removing the current entry after commands. -/
theorem bag_remove_executeAll {s : State σ} {e : Entry} {l : List Entry} (cs : List Command) (h : s.after = e :: l) :
    bag (removeCurrent (executeAll s cs)) = bag (removeCurrent s) + news cs := by
  obtain ⟨m, hm⟩ := executeAll_after s cs
  rw [h, List.cons_append] at hm
  have h1 := bag_remove hm
  rw [executeAll_bag, bag_remove h, Multiset.cons_add] at h1
  exact (Multiset.cons_inj_right e).mp h1.symm

/-! ## Reception -/

/-- What the loop of `handlePacket` finds. -/
theorem handleFrom_cases (a : App σ) (h : Header) (p : Payload) (x : σ) (log : List Obs) (before l : List Entry) :
    ((∀ e ∈ l, e.headerFits h = false) ∧ handleFrom a h p x log before l = (⟨before ++ l, [], x, log⟩, false)) ∨
    ∃ l1 e l2, l = l1 ++ e :: l2 ∧ e.headerFits h = true ∧ (∀ e ∈ l1, e.headerFits h = false) ∧
      handleFrom a h p x log before l = handleFrom a h p x log (before ++ l1) (e :: l2) := by
  induction l generalizing before with
  | nil => left; simp [handleFrom]
  | cons e l ih =>
    by_cases hf : e.headerFits h = true
    · right; exact ⟨[], e, l, rfl, hf, by simp, by simp⟩
    · have hf' : e.headerFits h = false := by simpa using hf
      have hstep : handleFrom a h p x log before (e :: l) = handleFrom a h p x log (before ++ [e]) l := by
        rw [handleFrom, hf']; rfl
      rw [hstep]
      rcases ih (before ++ [e]) with ⟨h1, h2⟩ | ⟨l1, e', l2, h1, h2, h3, h4⟩
      · left
        refine ⟨?_, by rw [h2, List.append_assoc]; rfl⟩
        intro e' he'
        rcases List.mem_cons.mp he' with rfl | he'
        · exact hf'
        · exact h1 _ he'
      · right
        refine ⟨e :: l1, e', l2, by rw [h1]; rfl, h2, ?_, by rw [h4, List.append_assoc]; rfl⟩
        intro e'' he''
        rcases List.mem_cons.mp he'' with rfl | he''
        · exact hf'
        · exact h3 _ he''

theorem bag_mk (b l1 l2 : List Entry) (e : Entry) (x : σ) (log : List Obs) :
    bag ⟨b ++ l1, e :: l2, x, log⟩ = e ::ₘ bag ⟨b ++ l1, l2, x, log⟩ :=
  bag_remove (s := ⟨b ++ l1, e :: l2, x, log⟩) rfl

/-- Reception of an action call or an event. -/
theorem updateOnceRx_request (a : App σ) (now : ℕ) (h : Header) (p : Payload) (s : State σ)
    (hr : h.kind = .request ∧ h.ack = false) (st : State σ) (f : Bool)
    (hd : deliver a h p (observe (.received h p) s) = (st, f)) :
    bag (updateOnceRx a now h p s) = bag st ∧
    (updateOnceRx a now h p s).before = st.before ∧ (updateOnceRx a now h p s).after = st.after ∧
    (updateOnceRx a now h p s).app = st.app ∧
    (updateOnceRx a now h p s).log = st.log ++
      if f = true ∧ h.destination ≠ 0 then [.sent now (ackOf h) []] else [] := by
  have hu : updateOnceRx a now h p s = if f = true ∧ h.destination ≠ 0 then sendAcknowledge now h st else st := by
    rw [updateOnceRx]; simp only [if_pos hr]; rw [hd]
  rw [hu]
  by_cases h1 : f = true ∧ h.destination ≠ 0
  · rw [if_pos h1, if_pos h1]; exact ⟨rfl, rfl, rfl, rfl, rfl⟩
  · rw [if_neg h1, if_neg h1]; exact ⟨rfl, rfl, rfl, rfl, by simp⟩

/-- Reception of anything else. -/
theorem updateOnceRx_other (a : App σ) (now : ℕ) (h : Header) (p : Payload) (s : State σ)
    (hr : ¬ (h.kind = .request ∧ h.ack = false)) (st : State σ) (f : Bool)
    (hd : handlePacket a h p (observe (.received h p) s) = (st, f)) :
    bag (updateOnceRx a now h p s) = bag st ∧
    (updateOnceRx a now h p s).before = st.before ∧ (updateOnceRx a now h p s).after = st.after ∧
    (updateOnceRx a now h p s).app = st.app ∧
    (updateOnceRx a now h p s).log = st.log ++
      if h.ack = false ∧ h.destination ≠ 0 ∧ (f = true ∨ a.available h.destination = true) then
        [.sent now (ackOf h) []] else [] := by
  have hu : updateOnceRx a now h p s = if h.ack = false ∧ h.destination ≠ 0 then
      if f = true ∨ a.available h.destination = true then sendAcknowledge now h st else st else st := by
    rw [updateOnceRx]; simp only [if_neg hr]; rw [hd]
  rw [hu]
  by_cases h1 : h.ack = false ∧ h.destination ≠ 0
  · by_cases h2 : f = true ∨ a.available h.destination = true
    · rw [if_pos h1, if_pos h2, if_pos ⟨h1.1, h1.2, h2⟩]; exact ⟨rfl, rfl, rfl, rfl, rfl⟩
    · rw [if_pos h1, if_neg h2, if_neg (fun h => h2 h.2.2)]; exact ⟨rfl, rfl, rfl, rfl, by simp⟩
  · rw [if_neg h1, if_neg (fun h => h1 ⟨h.1, h.2.1⟩)]; exact ⟨rfl, rfl, rfl, rfl, by simp⟩

theorem handleFrom_default (a : App σ) (h : Header) (p : Payload) (x : σ) (log : List Obs) (before l : List Entry)
    (e : Entry) (hf : e.headerFits h = true) (hc : e.callback = none) :
    handleFrom a h p x log before (e :: l) = (⟨before, l, x, log⟩, false) := by
  rw [handleFrom, if_pos hf, hc]

theorem handleFrom_ack (a : App σ) (h : Header) (p : Payload) (x : σ) (log : List Obs) (before l : List Entry)
    (e : Entry) (k : ℕ) (hf : e.headerFits h = true) (hc : e.callback = some k) (hk : h.kind = .request)
    (ha : h.ack = true) :
    handleFrom a h p x log before (e :: l) =
      (⟨before, ⟨e.callback, e.header, e.payload, .waitForResponse, e.time, e.tries⟩ :: l, x, log⟩, false) := by
  rw [handleFrom, if_pos hf, hc]; dsimp only; rw [if_pos hk, if_pos ha]

theorem handleFrom_ackResponse (a : App σ) (h : Header) (p : Payload) (x : σ) (log : List Obs) (before l : List Entry)
    (e : Entry) (k : ℕ) (hf : e.headerFits h = true) (hc : e.callback = some k) (hk : h.kind ≠ .request)
    (ha : h.ack = true) :
    handleFrom a h p x log before (e :: l) = (⟨before, l, x, log⟩, false) := by
  rw [handleFrom, if_pos hf, hc]; dsimp only; rw [if_neg hk, if_pos ha]

theorem handleFrom_response (a : App σ) (h : Header) (p : Payload) (x : σ) (log : List Obs) (before l : List Entry)
    (e : Entry) (k : ℕ) (hf : e.headerFits h = true) (hc : e.callback = some k) (hk : h.kind ≠ .request)
    (ha : h.ack = false) :
    handleFrom a h p x log before (e :: l) =
      (removeCurrent (executeAll ⟨before, e :: l, (a.callback x k h p).1, log ++ [.called k h p]⟩ (a.callback x k h p).2),
        true) := by
  rw [handleFrom, if_pos hf, hc]; dsimp only; rw [if_neg hk, if_neg (by simp [ha])]
  rfl

/-- Reception is a move. -/
theorem updateOnceRx_move (a : App σ) (cfg : Config) (now : ℕ) (h : Header) (p : Payload) (s : State σ) :
    Move a cfg now (bag s) s.log (bag (updateOnceRx a now h p s)) (updateOnceRx a now h p s).log := by
  by_cases hr : h.kind = .request ∧ h.ack = false
  · obtain ⟨e1, -, -, -, e2⟩ := updateOnceRx_request a now h p s hr _ _ rfl
    have hm := Move.rxRequest (a := a) (cfg := cfg) (now := now) (b := bag s) (log := s.log) (h := h) (p := p)
      (cs := (a.deliver s.app h p).2.2) (a.deliver s.app h p).2.1 hr.1 hr.2 ⟨_, rfl⟩
    rw [e1, e2]
    simp only [executeAll_bag, executeAll_log, observe]
    refine hm.cast ?_ ?_
    · rfl
    · simp only [List.append_assoc, List.cons_append, List.nil_append]
      rfl
  · have hbag : bag s = ↑(s.before ++ s.after) := rfl
    rcases handleFrom_cases a h p s.app (s.log ++ [.received h p]) [] (s.before ++ s.after) with
      ⟨h1, h2⟩ | ⟨l1, e, l2, h1, h2, h3, h4⟩
    · obtain ⟨e1, -, -, -, e2⟩ := updateOnceRx_other a now h p s hr _ _ h2
      rw [e1, e2]
      have hm := Move.rxNone (a := a) (cfg := cfg) (now := now) (b := bag s) (log := s.log) (p := p) hr
        (by intro e he; exact h1 e (by simpa [bag] using he))
      refine hm.cast ?_ ?_
      · simp [bag]
      · simp
    · rw [List.nil_append] at h4
      have hb : bag s = e ::ₘ ↑(l1 ++ l2) := by
        rw [hbag, h1, Multiset.cons_coe, Multiset.coe_eq_coe]; exact List.perm_middle
      rw [hb]
      cases hc : e.callback with
      | none =>
        obtain ⟨e1, -, -, -, e2⟩ := updateOnceRx_other a now h p s hr _ _
          (h4.trans (handleFrom_default a h p _ _ l1 l2 e h2 hc))
        rw [e1, e2]
        have hm := Move.rxDefault (a := a) (cfg := cfg) (now := now) (b := ↑(l1 ++ l2)) (log := s.log) (p := p) e hr h2 hc
        refine hm.cast ?_ ?_
        · rfl
        · simp
      | some k =>
        by_cases hk : h.kind = .request
        · have ha : h.ack = true := by
            cases hh : h.ack with
            | true => rfl
            | false => exact absurd ⟨hk, hh⟩ hr
          obtain ⟨e1, -, -, -, e2⟩ := updateOnceRx_other a now h p s hr _ _
            (h4.trans (handleFrom_ack a h p _ _ l1 l2 e k h2 hc hk ha))
          rw [e1, e2]
          have hm := Move.rxAck (a := a) (cfg := cfg) (now := now) (b := ↑(l1 ++ l2)) (log := s.log) (p := p) e k hk ha h2
            hc
          refine hm.cast ?_ ?_
          · simp only [bag, Multiset.cons_coe, Multiset.coe_eq_coe]
            exact List.perm_middle
          · simp [ha]
        · cases ha : h.ack with
          | true =>
            obtain ⟨e1, -, -, -, e2⟩ := updateOnceRx_other a now h p s hr _ _
              (h4.trans (handleFrom_ackResponse a h p _ _ l1 l2 e k h2 hc hk ha))
            rw [e1, e2]
            have hm := Move.rxAckResponse (a := a) (cfg := cfg) (now := now) (b := ↑(l1 ++ l2)) (log := s.log) (p := p) e k
              hk ha h2 hc
            refine hm.cast ?_ ?_
            · rfl
            · simp [ha]
          | false =>
            obtain ⟨e1, -, -, -, e2⟩ := updateOnceRx_other a now h p s hr _ _
              (h4.trans (handleFrom_response a h p _ _ l1 l2 e k h2 hc hk ha))
            rw [e1, e2]
            have hm := Move.rxResponse (a := a) (cfg := cfg) (now := now) (b := ↑(l1 ++ l2)) (log := s.log) (p := p) e k
              hk ha h2 hc (cs := (a.callback s.app k h p).2)
            rw [bag_remove_executeAll (s := ⟨l1, e :: l2, (a.callback s.app k h p).1, _⟩) _ rfl]
            refine hm.cast ?_ ?_
            · rfl
            · simp only [removeCurrent, executeAll_log, ha]
              simp

/-! ## The loop over the entries -/

theorem bag_cons (s : State σ) {e : Entry} {l : List Entry} (h : s.after = e :: l) :
    bag s = e ::ₘ (↑(s.before ++ l) : Multiset Entry) := by
  rw [bag_remove h]; simp [bag, removeCurrent, h]

/-- One round of the loop is a move. -/
theorem visit_move (a : App σ) (cfg : Config) (now : ℕ) (s : State σ) (e : Entry) (l : List Entry)
    (hs : s.after = e :: l) :
    Move a cfg now (bag s) s.log (bag (visit a cfg now e s)) (visit a cfg now e s).log := by
  have hrem : bag s = e ::ₘ (↑(s.before ++ l) : Multiset Entry) := bag_cons s hs
  have hrem' : ∀ x log, bag (removeCurrent (σ := σ) ⟨s.before, s.after, x, log⟩) = (↑(s.before ++ l) : Multiset Entry) := by
    intro x log; simp [bag, removeCurrent, hs]
  cases hp : e.phase with
  | transmissionPending =>
    by_cases hd : e.header.destination = 0
    · have hv : visit a cfg now e s = removeCurrent (send now e.header e.payload (deliver a e.header e.payload s).1) := by
        rw [visit, hp]; dsimp only; rw [if_pos hd]
      rw [hv, hrem]
      have hm := Move.event (a := a) (cfg := cfg) (now := now) (b := ↑(s.before ++ l)) (log := s.log)
        (cs := (a.deliver s.app e.header e.payload).2.2) e hp hd
      have h1 := bag_remove_executeAll (s := ⟨s.before, s.after, (a.deliver s.app e.header e.payload).1,
        s.log ++ [.delivered e.header e.payload]⟩) (a.deliver s.app e.header e.payload).2.2 hs
      rw [hrem'] at h1
      refine hm.cast ?_ ?_
      · first | rfl | exact h1
      · simp only [removeCurrent, send, observe, deliver, executeAll_log]
        simp
    · cases hv : a.available e.header.destination with
      | false =>
        have hv' : visit a cfg now e s = advance ⟨e.callback, e.header, e.payload, .waitForAck,
            Timer.restart 65536 now cfg.acknowledgeTimeout e.time, e.tries⟩ (send now e.header e.payload s) := by
          rw [visit, hp]; dsimp only; rw [if_neg hd, hv]; rfl
        rw [hv', bag_advance (s := send now e.header e.payload s) hs, hrem]
        have hm := Move.transmit (a := a) (cfg := cfg) (now := now) (b := ↑(s.before ++ l)) (log := s.log) e hp hd hv
        refine hm.cast ?_ ?_
        · rw [← hrem' s.app (s.log ++ [.sent now e.header e.payload])]; rfl
        · rfl
      | true =>
        have hv' : visit a cfg now e s = sendMessageToInnerComponent a cfg now e s := by
          rw [visit, hp]; dsimp only; rw [if_neg hd, if_pos hv]
        rw [hv']
        by_cases hk : e.header.kind = .request
        · have h1 := bag_remove_executeAll (s := ⟨s.before, s.after, (a.deliver s.app e.header e.payload).1,
            s.log ++ [.sent now e.header e.payload] ++ [.delivered e.header e.payload]⟩)
            (a.deliver s.app e.header e.payload).2.2 hs
          rw [hrem'] at h1
          cases hc : e.callback with
          | none =>
            have hi : sendMessageToInnerComponent a cfg now e s =
                removeCurrent (deliver a e.header e.payload (send now e.header e.payload s)).1 := by
              rw [sendMessageToInnerComponent]; simp only [if_pos hk]; rw [hc]
            rw [hi, hrem]
            have hm := Move.innerDefault (a := a) (cfg := cfg) (now := now) (b := ↑(s.before ++ l)) (log := s.log)
              (cs := (a.deliver s.app e.header e.payload).2.2) e hp hd hv hk hc
            refine hm.cast ?_ ?_
            · first | rfl | exact h1
            · simp only [removeCurrent, send, observe, deliver, executeAll_log]
              simp
          | some k =>
            have hi : sendMessageToInnerComponent a cfg now e s =
                (let st := (deliver a e.header e.payload (send now e.header e.payload s)).1
                ⟨st.before, ⟨e.callback, e.header, e.payload, .waitForResponse,
                  Timer.restart 65536 now cfg.responseTimeout e.time, e.tries⟩ :: st.after.tail, st.app, st.log⟩) := by
              rw [sendMessageToInnerComponent]; simp only [if_pos hk]; rw [hc]
            rw [hi, hrem]
            have hm := Move.innerCall (a := a) (cfg := cfg) (now := now) (b := ↑(s.before ++ l)) (log := s.log)
              (cs := (a.deliver s.app e.header e.payload).2.2) e k hp hd hv hk hc
            dsimp only
            refine hm.cast ?_ ?_
            · rw [← h1]
              exact bag_remove (s := ⟨_, _ :: _, _, _⟩) rfl
            · simp only [send, observe, deliver, executeAll_log]
              simp
        · cases hq : s.after.tail.findIdx? (Entry.isWaitingFor e.header) with
          | none =>
            have hi : sendMessageToInnerComponent a cfg now e s = removeCurrent (send now e.header e.payload s) := by
              rw [sendMessageToInnerComponent]; simp only [if_neg hk]
              rw [show (send now e.header e.payload s).after = s.after from rfl, hq]
            rw [hi, hrem]
            have hm := Move.innerNone (a := a) (cfg := cfg) (now := now) (b := ↑(s.before ++ l)) (log := s.log)
              e hp hd hv hk
            refine hm.cast ?_ ?_
            · exact hrem' s.app _
            · rfl
          | some i =>
            obtain ⟨hil, hiw, -⟩ := List.findIdx?_eq_some_iff_getElem.mp hq
            obtain ⟨q, hqd⟩ : ∃ q, q = s.after.tail[i] := ⟨_, rfl⟩
            rw [← hqd] at hiw
            have hget : s.after.tail[i]? = some q := by rw [hqd]; exact List.getElem?_eq_getElem hil
            have hi : sendMessageToInnerComponent a cfg now e s =
                (let st := callbackResponse a q.callback e.header e.payload (send now e.header e.payload s)
                removeCurrent ⟨st.before, st.after.eraseIdx (i + 1), st.app, st.log⟩) := by
              rw [sendMessageToInnerComponent]; simp only [if_neg hk]
              rw [show (send now e.header e.payload s).after = s.after from rfl, hq]
              dsimp only
              rw [hget]; rfl
            rw [hs, List.tail_cons] at hget hil
            have hperm : ∀ m, (q :: (s.before ++ (l ++ m).eraseIdx i)).Perm (s.before ++ (l ++ m)) := by
              intro m
              have h1 : ((l ++ m)[i]'(by simp; omega)) = q := by
                rw [List.getElem_append_left hil]
                rw [List.getElem?_eq_getElem hil] at hget
                exact Option.some.inj hget
              have h2 := List.getElem_cons_eraseIdx_perm (l := l ++ m) (n := i) (by simp; omega)
              rw [h1] at h2
              exact (List.perm_middle.symm).trans (h2.append_left s.before)
            have hb : (↑(s.before ++ l) : Multiset Entry) = q ::ₘ ↑(s.before ++ l.eraseIdx i) := by
              have := hperm []
              rw [List.append_nil] at this
              rw [Multiset.cons_coe, Multiset.coe_eq_coe]; exact this.symm
            rw [hi, hrem, hb]
            cases hc : q.callback with
            | none =>
              have hm := Move.innerDrop (a := a) (cfg := cfg) (now := now) (b := ↑(s.before ++ l.eraseIdx i))
                (log := s.log) e q hp hd hv hk hiw hc
              refine hm.cast ?_ ?_
              · simp [bag, removeCurrent, callbackResponse, send, observe, hs]
              · rfl
            | some k =>
              have hm := Move.innerAnswer (a := a) (cfg := cfg) (now := now) (b := ↑(s.before ++ l.eraseIdx i))
                (log := s.log) (cs := (a.callback s.app k e.header e.payload).2) e q k hp hd hv hk hiw hc
              refine hm.cast ?_ ?_
              · obtain ⟨st, hst⟩ : ∃ st : State σ, st = ⟨s.before, s.after, (a.callback s.app k e.header e.payload).1,
                  s.log ++ [.sent now e.header e.payload] ++ [.called k e.header e.payload]⟩ := ⟨_, rfl⟩
                have hcr : callbackResponse a (some k) e.header e.payload (send now e.header e.payload s) =
                    executeAll st (a.callback s.app k e.header e.payload).2 := by rw [hst]; rfl
                rw [hcr]
                obtain ⟨m, hm'⟩ := executeAll_after st (a.callback s.app k e.header e.payload).2
                have hbg := executeAll_bag st (a.callback s.app k e.header e.payload).2
                have hbst : bag st = e ::ₘ q ::ₘ ↑(s.before ++ l.eraseIdx i) := by
                  rw [← hb, ← hrem, hst]; rfl
                obtain ⟨u, hu⟩ : ∃ u, u = executeAll st (a.callback s.app k e.header e.payload).2 := ⟨_, rfl⟩
                rw [← hu] at hm' hbg ⊢
                have hua : u.after = e :: (l ++ m) := by rw [hm', hst]; simp [hs]
                have hup : bag u = e ::ₘ q ::ₘ ↑(u.before ++ (l ++ m).eraseIdx i) := by
                  rw [bag_cons u hua]
                  congr 1
                  rw [Multiset.cons_coe, Multiset.coe_eq_coe]
                  have h1 : ((l ++ m)[i]'(by simp; omega)) = q := by
                    rw [List.getElem_append_left hil]
                    rw [List.getElem?_eq_getElem hil] at hget
                    exact Option.some.inj hget
                  have h2 := List.getElem_cons_eraseIdx_perm (l := l ++ m) (n := i) (by simp; omega)
                  rw [h1] at h2
                  exact ((List.perm_middle.symm).trans (h2.append_left u.before)).symm
                rw [hup, hbst, Multiset.cons_add, Multiset.cons_add] at hbg
                have := (Multiset.cons_inj_right q).mp ((Multiset.cons_inj_right e).mp hbg)
                rw [← this]
                simp [bag, removeCurrent, hua]
              · simp only [removeCurrent, callbackResponse, send, observe, executeAll_log]
                simp
  | waitForAck =>
    cases ht : (Timer.isExpired 65536 now e.time).2 with
    | true =>
      by_cases hn : 2 ≤ e.tries
      · have hv' : visit a cfg now e s = removeCurrent (callbackResponse a e.callback
            ⟨.timeout, e.header.ack, e.header.destination, e.header.source, e.header.packet⟩ e.payload s) := by
          rw [visit, hp]; dsimp only; rw [if_pos ht, if_pos hn]
        rw [hv', hrem]
        cases hc : e.callback with
        | none =>
          have hm := Move.drop (a := a) (cfg := cfg) (now := now) (b := ↑(s.before ++ l)) (log := s.log) e hp ht hn hc
          refine hm.cast ?_ ?_
          · exact hrem' s.app _
          · rfl
        | some k =>
          have hm := Move.giveUp (a := a) (cfg := cfg) (now := now) (b := ↑(s.before ++ l)) (log := s.log)
            (cs := (a.callback s.app k ⟨.timeout, e.header.ack, e.header.destination, e.header.source, e.header.packet⟩
              e.payload).2) e k hp ht hn hc
          refine hm.cast ?_ ?_
          · have h1 := bag_remove_executeAll (s := ⟨s.before, s.after, (a.callback s.app k ⟨.timeout, e.header.ack,
              e.header.destination, e.header.source, e.header.packet⟩ e.payload).1,
              s.log ++ [.called k ⟨.timeout, e.header.ack, e.header.destination, e.header.source, e.header.packet⟩ e.payload]⟩)
              (a.callback s.app k ⟨.timeout, e.header.ack, e.header.destination, e.header.source, e.header.packet⟩
              e.payload).2 hs
            rw [hrem'] at h1
            exact h1
          · simp only [removeCurrent, callbackResponse, executeAll_log]
            simp
      · have hv' : visit a cfg now e s = advance ⟨e.callback, e.header, e.payload, .waitForAck,
            Timer.restart 65536 now cfg.acknowledgeTimeout (Timer.isExpired 65536 now e.time).1, e.tries + 1⟩
            (send now e.header e.payload s) := by
          rw [visit, hp]; dsimp only; rw [if_pos ht, if_neg hn]
        rw [hv', bag_advance (s := send now e.header e.payload s) hs, hrem]
        have hm := Move.retransmit (a := a) (cfg := cfg) (now := now) (b := ↑(s.before ++ l)) (log := s.log) e hp ht
          (by omega)
        refine hm.cast ?_ ?_
        · rw [← hrem' s.app (s.log ++ [.sent now e.header e.payload])]; rfl
        · rfl
    | false =>
      have hv' : visit a cfg now e s = advance ⟨e.callback, e.header, e.payload, e.phase,
          (Timer.isExpired 65536 now e.time).1, e.tries⟩ s := by
        rw [visit, hp]; dsimp only; rw [if_neg (by simp [ht])]
      rw [hv', bag_advance hs, hrem]
      have hm := Move.wait (a := a) (cfg := cfg) (now := now) (b := ↑(s.before ++ l)) (log := s.log) e hp ht
      refine hm.cast ?_ ?_
      · rw [← hrem' s.app s.log]
      · rfl
  | waitForResponse =>
    have hv' : visit a cfg now e s = advance e s := by rw [visit, hp]
    rw [hv', bag_advance hs]
    have hm := Move.idle (a := a) (cfg := cfg) (now := now) (b := bag s) (log := s.log)
    refine hm.cast ?_ ?_
    · exact (bag_remove hs).symm
    · rfl

/-! ## The order of the entries -/

/-- Responses are put in front of the list, in reverse order, everything else at its end. -/
def isResponse : Command → Bool
  | .sendResponse .. => true
  | .sendNegativeResponse .. => true
  | _ => false

def responses (cs : List Command) : List Entry := ((cs.filter isResponse).map newEntry).reverse

def messages (cs : List Command) : List Entry := (cs.filter (fun c => !isResponse c)).map newEntry

theorem executeAll_lists (s : State σ) (cs : List Command) :
    executeAll s cs = ⟨responses cs ++ s.before, s.after ++ messages cs, s.app, s.log ++ issues cs⟩ := by
  unfold executeAll
  induction cs generalizing s with
  | nil => simp [responses, messages, issues]
  | cons c cs ih =>
    rw [List.foldl_cons, ih]
    cases c <;>
      simp [execute, observe, addMessage, addResponse, responses, messages, issues, isResponse, newEntry, message, callbackOf,
        List.filter_cons]

/-- What one round of the loop does, when it is at the entry `e`, followed by `l`: the commands executed, what is
observed before and after them, what is left behind, and what is left of the rest of the list. -/
inductive Shape (a : App σ) (cfg : Config) (now : ℕ) (x : σ) (e : Entry) (l : List Entry) :
    List Command → List Obs → List Obs → List Entry → List Entry → Prop
  | event (hp : e.phase = .transmissionPending) (hd : e.header.destination = 0) :
      Shape a cfg now x e l (a.deliver x e.header e.payload).2.2 [.delivered e.header e.payload]
        [.sent now e.header e.payload] [] l
  | innerCall (k : ℕ) (hp : e.phase = .transmissionPending) (hd : e.header.destination ≠ 0)
      (hv : a.available e.header.destination = true) (hk : e.header.kind = .request) (hc : e.callback = some k) :
      Shape a cfg now x e l (a.deliver x e.header e.payload).2.2
        [.sent now e.header e.payload, .delivered e.header e.payload] [] []
        (⟨e.callback, e.header, e.payload, .waitForResponse, Timer.restart 65536 now cfg.responseTimeout e.time, e.tries⟩ :: l)
  | innerDefault (hp : e.phase = .transmissionPending) (hd : e.header.destination ≠ 0)
      (hv : a.available e.header.destination = true) (hk : e.header.kind = .request) (hc : e.callback = none) :
      Shape a cfg now x e l (a.deliver x e.header e.payload).2.2
        [.sent now e.header e.payload, .delivered e.header e.payload] [] [] l
  | innerAnswer (i k : ℕ) (q : Entry) (hp : e.phase = .transmissionPending) (hd : e.header.destination ≠ 0)
      (hv : a.available e.header.destination = true) (hk : e.header.kind ≠ .request) (hi : l[i]? = some q)
      (hq : q.isWaitingFor e.header = true) (hc : q.callback = some k) :
      Shape a cfg now x e l (a.callback x k e.header e.payload).2
        [.sent now e.header e.payload, .called k e.header e.payload] [] [] (l.eraseIdx i)
  | innerDrop (i : ℕ) (q : Entry) (hp : e.phase = .transmissionPending) (hd : e.header.destination ≠ 0)
      (hv : a.available e.header.destination = true) (hk : e.header.kind ≠ .request) (hi : l[i]? = some q)
      (hq : q.isWaitingFor e.header = true) (hc : q.callback = none) :
      Shape a cfg now x e l [] [.sent now e.header e.payload] [] [] (l.eraseIdx i)
  | innerNone (hp : e.phase = .transmissionPending) (hd : e.header.destination ≠ 0)
      (hv : a.available e.header.destination = true) (hk : e.header.kind ≠ .request) :
      Shape a cfg now x e l [] [.sent now e.header e.payload] [] [] l
  | transmit (hp : e.phase = .transmissionPending) (hd : e.header.destination ≠ 0)
      (hv : a.available e.header.destination = false) :
      Shape a cfg now x e l [] [.sent now e.header e.payload] [] [⟨e.callback, e.header, e.payload, .waitForAck,
        Timer.restart 65536 now cfg.acknowledgeTimeout e.time, e.tries⟩] l
  | giveUp (k : ℕ) (hp : e.phase = .waitForAck) (ht : (Timer.isExpired 65536 now e.time).2 = true)
      (hn : 2 ≤ e.tries) (hc : e.callback = some k) :
      Shape a cfg now x e l (a.callback x k
          ⟨.timeout, e.header.ack, e.header.destination, e.header.source, e.header.packet⟩ e.payload).2
        [.called k ⟨.timeout, e.header.ack, e.header.destination, e.header.source, e.header.packet⟩ e.payload] [] [] l
  | drop (hp : e.phase = .waitForAck) (ht : (Timer.isExpired 65536 now e.time).2 = true)
      (hn : 2 ≤ e.tries) (hc : e.callback = none) : Shape a cfg now x e l [] [] [] [] l
  | retransmit (hp : e.phase = .waitForAck) (ht : (Timer.isExpired 65536 now e.time).2 = true) (hn : e.tries < 2) :
      Shape a cfg now x e l [] [.sent now e.header e.payload] [] [⟨e.callback, e.header, e.payload, .waitForAck,
        Timer.restart 65536 now cfg.acknowledgeTimeout (Timer.isExpired 65536 now e.time).1, e.tries + 1⟩] l
  | wait (hp : e.phase = .waitForAck) (ht : (Timer.isExpired 65536 now e.time).2 = false) :
      Shape a cfg now x e l [] [] [] [⟨e.callback, e.header, e.payload, e.phase, (Timer.isExpired 65536 now e.time).1,
        e.tries⟩] l
  | idle (hp : e.phase = .waitForResponse) : Shape a cfg now x e l [] [] [] [e] l

theorem visit_shape (a : App σ) (cfg : Config) (now : ℕ) (s : State σ) (e : Entry) (l : List Entry)
    (hs : s.after = e :: l) : ∃ cs o1 o2 kept l' x', Shape a cfg now s.app e l cs o1 o2 kept l' ∧
      visit a cfg now e s = ⟨responses cs ++ s.before ++ kept, l' ++ messages cs, x', s.log ++ (o1 ++ issues cs ++ o2)⟩ := by
  have r0 : responses [] = [] := rfl
  have m0 : messages [] = [] := rfl
  have i0 : issues [] = [] := rfl
  cases hp : e.phase with
  | transmissionPending =>
    by_cases hd : e.header.destination = 0
    · refine ⟨_, _, _, _, _, (a.deliver s.app e.header e.payload).1, .event hp hd, ?_⟩
      rw [visit, hp]; dsimp only; rw [if_pos hd]
      simp [deliver, send, observe, removeCurrent, executeAll_lists, hs]
    · cases hv : a.available e.header.destination with
      | false =>
        refine ⟨_, _, _, _, _, s.app, .transmit hp hd hv, ?_⟩
        rw [visit, hp]; dsimp only; rw [if_neg hd, hv]
        simp [advance, send, observe, hs, r0, m0, i0]
      | true =>
        have hv' : visit a cfg now e s = sendMessageToInnerComponent a cfg now e s := by
          rw [visit, hp]; dsimp only; rw [if_neg hd, if_pos hv]
        rw [hv']
        by_cases hk : e.header.kind = .request
        · cases hc : e.callback with
          | none =>
            refine ⟨_, _, _, _, _, (a.deliver s.app e.header e.payload).1, .innerDefault hp hd hv hk hc, ?_⟩
            rw [sendMessageToInnerComponent]; simp only [if_pos hk]; rw [hc]
            simp [deliver, send, observe, removeCurrent, executeAll_lists, hs]
          | some k =>
            refine ⟨_, _, _, _, _, (a.deliver s.app e.header e.payload).1, .innerCall k hp hd hv hk hc, ?_⟩
            rw [sendMessageToInnerComponent]; simp only [if_pos hk]; rw [hc]
            simp [deliver, send, observe, executeAll_lists, hs]
        · cases hq : s.after.tail.findIdx? (Entry.isWaitingFor e.header) with
          | none =>
            refine ⟨_, _, _, _, _, s.app, .innerNone hp hd hv hk, ?_⟩
            rw [sendMessageToInnerComponent]; simp only [if_neg hk]
            rw [show (send now e.header e.payload s).after = s.after from rfl, hq]
            simp [send, observe, removeCurrent, hs, r0, m0, i0]
          | some i =>
            obtain ⟨hil, hiw, -⟩ := List.findIdx?_eq_some_iff_getElem.mp hq
            obtain ⟨q, hqd⟩ : ∃ q, q = s.after.tail[i] := ⟨_, rfl⟩
            rw [← hqd] at hiw
            have hget : s.after.tail[i]? = some q := by rw [hqd]; exact List.getElem?_eq_getElem hil
            have hi : sendMessageToInnerComponent a cfg now e s =
                (let st := callbackResponse a q.callback e.header e.payload (send now e.header e.payload s)
                removeCurrent ⟨st.before, st.after.eraseIdx (i + 1), st.app, st.log⟩) := by
              rw [sendMessageToInnerComponent]; simp only [if_neg hk]
              rw [show (send now e.header e.payload s).after = s.after from rfl, hq]
              dsimp only
              rw [hget]; rfl
            rw [hi]
            rw [hs, List.tail_cons] at hget hil
            cases hc : q.callback with
            | none =>
              refine ⟨_, _, _, _, _, s.app, .innerDrop i q hp hd hv hk hget hiw hc, ?_⟩
              simp [callbackResponse, send, observe, removeCurrent, hs, r0, m0, i0]
            | some k =>
              refine ⟨_, _, _, _, _, (a.callback s.app k e.header e.payload).1, .innerAnswer i k q hp hd hv hk hget hiw hc, ?_⟩
              simp only [callbackResponse, send, observe, removeCurrent, executeAll_lists, hs]
              simp only [List.cons_append, List.eraseIdx_cons_succ, List.tail_cons, List.eraseIdx_append_of_lt_length hil]
              simp
  | waitForAck =>
    cases ht : (Timer.isExpired 65536 now e.time).2 with
    | true =>
      by_cases hn : 2 ≤ e.tries
      · have hv' : visit a cfg now e s = removeCurrent (callbackResponse a e.callback
            ⟨.timeout, e.header.ack, e.header.destination, e.header.source, e.header.packet⟩ e.payload s) := by
          rw [visit, hp]; dsimp only; rw [if_pos ht, if_pos hn]
        rw [hv']
        cases hc : e.callback with
        | none =>
          refine ⟨_, _, _, _, _, s.app, .drop hp ht hn hc, ?_⟩
          simp [callbackResponse, removeCurrent, hs, r0, m0, i0]
        | some k =>
          refine ⟨_, _, _, _, _, (a.callback s.app k
            ⟨.timeout, e.header.ack, e.header.destination, e.header.source, e.header.packet⟩ e.payload).1,
            .giveUp k hp ht hn hc, ?_⟩
          simp [callbackResponse, removeCurrent, executeAll_lists, hs]
      · refine ⟨_, _, _, _, _, s.app, .retransmit hp ht (by omega), ?_⟩
        rw [visit, hp]; dsimp only; rw [if_pos ht, if_neg hn]
        simp [advance, send, observe, hs, r0, m0, i0]
    | false =>
      refine ⟨_, _, _, _, _, s.app, .wait hp ht, ?_⟩
      rw [visit, hp]; dsimp only; rw [if_neg (by simp [ht])]
      simp [advance, hs, r0, m0, i0]
  | waitForResponse =>
    refine ⟨_, _, _, _, _, s.app, .idle hp, ?_⟩
    rw [visit, hp]
    simp [advance, hs, r0, m0, i0]

/-- What the reception of a packet does to the list of entries: the commands executed, what is observed before them, and
what is left of the list. -/
inductive RxShape (a : App σ) (x : σ) (h : Header) (p : Payload) (l : List Entry) :
    List Command → List Obs → List Entry → Prop
  | request (hk : h.kind = .request) (ha : h.ack = false) :
      RxShape a x h p l (a.deliver x h p).2.2 [.received h p, .delivered h p] l
  | none (hr : ¬ (h.kind = .request ∧ h.ack = false)) (hn : ∀ e ∈ l, e.headerFits h = false) :
      RxShape a x h p l [] [.received h p] l
  | default (l1 l2 : List Entry) (e : Entry) (hr : ¬ (h.kind = .request ∧ h.ack = false)) (hl : l = l1 ++ e :: l2)
      (hf : e.headerFits h = true) (hc : e.callback = Option.none) : RxShape a x h p l [] [.received h p] (l1 ++ l2)
  | ack (l1 l2 : List Entry) (e : Entry) (k : ℕ) (hk : h.kind = .request) (ha : h.ack = true) (hl : l = l1 ++ e :: l2)
      (hf : e.headerFits h = true) (hc : e.callback = some k) : RxShape a x h p l [] [.received h p]
        (l1 ++ ⟨e.callback, e.header, e.payload, .waitForResponse, e.time, e.tries⟩ :: l2)
  | ackResponse (l1 l2 : List Entry) (e : Entry) (k : ℕ) (hk : h.kind ≠ .request) (ha : h.ack = true) (hl : l = l1 ++ e :: l2)
      (hf : e.headerFits h = true) (hc : e.callback = some k) : RxShape a x h p l [] [.received h p] (l1 ++ l2)
  | response (l1 l2 : List Entry) (e : Entry) (k : ℕ) (hk : h.kind ≠ .request) (ha : h.ack = false) (hl : l = l1 ++ e :: l2)
      (hf : e.headerFits h = true) (hc : e.callback = some k) :
      RxShape a x h p l (a.callback x k h p).2 [.received h p, .called k h p] (l1 ++ l2)

theorem updateOnceRx_shape (a : App σ) (now : ℕ) (h : Header) (p : Payload) (s : State σ) :
    ∃ cs o1 o2 l', RxShape a s.app h p (s.before ++ s.after) cs o1 l' ∧ (o2 = [] ∨ o2 = [.sent now (ackOf h) []]) ∧
      (updateOnceRx a now h p s).before ++ (updateOnceRx a now h p s).after = responses cs ++ l' ++ messages cs ∧
      (updateOnceRx a now h p s).log = s.log ++ (o1 ++ issues cs ++ o2) := by
  have hite : ∀ (c : Prop) [Decidable c], (if c then [Obs.sent now (ackOf h) []] else []) = [] ∨
      (if c then [Obs.sent now (ackOf h) []] else []) = [.sent now (ackOf h) []] := by
    intro c _; by_cases hc : c
    · right; rw [if_pos hc]
    · left; rw [if_neg hc]
  have hsplit : ∀ (log L s M o2 : List Obs), log = L ++ o2 → L = s ++ M → log = s ++ (M ++ o2) := by
    rintro _ _ s M o2 rfl rfl; rw [List.append_assoc]
  have r0 : responses [] = [] := rfl
  have m0 : messages [] = [] := rfl
  have i0 : issues [] = [] := rfl
  by_cases hr : h.kind = .request ∧ h.ack = false
  · obtain ⟨-, e1, e2, -, e3⟩ := updateOnceRx_request a now h p s hr _ _ rfl
    refine ⟨_, _, _, _, .request hr.1 hr.2, ?_, ?_, hsplit _ _ _ _ _ e3 ?_⟩
    · exact hite _
    · rw [e1, e2]
      simp [executeAll_lists, observe]
    · simp [executeAll_lists, observe]
  · rcases handleFrom_cases a h p s.app (s.log ++ [.received h p]) [] (s.before ++ s.after) with
      ⟨h1, h2⟩ | ⟨l1, e, l2, h1, h2, h3, h4⟩
    · obtain ⟨-, e1, e2, -, e3⟩ := updateOnceRx_other a now h p s hr _ _ h2
      refine ⟨_, _, _, _, .none hr h1, ?_, ?_, hsplit _ _ _ _ _ e3 ?_⟩
      · exact hite _
      · rw [e1, e2]; simp [r0, m0]
      · simp [i0]
    · rw [List.nil_append] at h4
      cases hc : e.callback with
      | none =>
        obtain ⟨-, e1, e2, -, e3⟩ := updateOnceRx_other a now h p s hr _ _
          (h4.trans (handleFrom_default a h p _ _ l1 l2 e h2 hc))
        refine ⟨_, _, _, _, .default l1 l2 e hr h1 h2 hc, ?_, ?_, hsplit _ _ _ _ _ e3 ?_⟩
        · exact hite _
        · rw [e1, e2]; simp [r0, m0]
        · simp [i0]
      | some k =>
        by_cases hk : h.kind = .request
        · have ha : h.ack = true := by
            cases hh : h.ack with
            | true => rfl
            | false => exact absurd ⟨hk, hh⟩ hr
          obtain ⟨-, e1, e2, -, e3⟩ := updateOnceRx_other a now h p s hr _ _
            (h4.trans (handleFrom_ack a h p _ _ l1 l2 e k h2 hc hk ha))
          refine ⟨_, _, _, _, .ack l1 l2 e k hk ha h1 h2 hc, ?_, ?_, hsplit _ _ _ _ _ e3 ?_⟩
          · exact hite _
          · rw [e1, e2]; simp [r0, m0]
          · simp [i0]
        · cases ha : h.ack with
          | true =>
            obtain ⟨-, e1, e2, -, e3⟩ := updateOnceRx_other a now h p s hr _ _
              (h4.trans (handleFrom_ackResponse a h p _ _ l1 l2 e k h2 hc hk ha))
            refine ⟨_, _, _, _, .ackResponse l1 l2 e k hk ha h1 h2 hc, ?_, ?_, hsplit _ _ _ _ _ e3 ?_⟩
            · exact hite _
            · rw [e1, e2]; simp [r0, m0]
            · simp [i0]
          | false =>
            obtain ⟨-, e1, e2, -, e3⟩ := updateOnceRx_other a now h p s hr _ _
              (h4.trans (handleFrom_response a h p _ _ l1 l2 e k h2 hc hk ha))
            refine ⟨_, _, _, _, .response l1 l2 e k hk ha h1 h2 hc, ?_, ?_, hsplit _ _ _ _ _ e3 ?_⟩
            · exact hite _
            · rw [e1, e2]; simp [executeAll_lists, removeCurrent]
            · simp [executeAll_lists, removeCurrent]

/-! ## Runs -/

/-- The times of the updates. -/
def Step.times : List Step → List ℕ
  | [] => []
  | .command _ :: xs => Step.times xs
  | .update now _ :: xs => now :: Step.times xs

variable {a : App σ} {cfg : Config} {R : ℕ → ℕ → Prop}

theorem visitAll_reach (hrefl : ∀ t, R t t) {now fuel t : ℕ} {s s' : State σ} (hs : Reach a cfg R t (bag s) s.log)
    (ht : R t now) (h : visitAll a cfg now fuel s = some s') :
    ∃ t', R t' now ∧ Reach a cfg R t' (bag s') s'.log := by
  induction fuel generalizing s t with
  | zero => exact absurd h (by simp [visitAll])
  | succ fuel ih =>
    rw [visitAll] at h
    cases hl : s.after with
    | nil => rw [hl] at h; cases h; exact ⟨t, ht, hs⟩
    | cons e l =>
      rw [hl] at h
      exact ih (hs.move ht (visit_move a cfg now s e l hl)) (hrefl now) h

theorem receive_reach (hrefl : ∀ t, R t t) {now t : ℕ} (packets : List (Header × Payload)) {s : State σ}
    (hs : Reach a cfg R t (bag s) s.log) (ht : R t now) :
    ∃ t', R t' now ∧ Reach a cfg R t' (bag (packets.foldl (fun s hp => updateOnceRx a now hp.1 hp.2 s) s))
      (packets.foldl (fun s hp => updateOnceRx a now hp.1 hp.2 s) s).log := by
  induction packets generalizing s t with
  | nil => exact ⟨t, ht, hs⟩
  | cons hp ps ih =>
    rw [List.foldl_cons]
    exact ih (hs.move ht (updateOnceRx_move a cfg now hp.1 hp.2 s)) (hrefl now)

theorem update_reach (hrefl : ∀ t, R t t) {now fuel t : ℕ} {packets : List (Header × Payload)} {s s' : State σ}
    (hs : Reach a cfg R t (bag s) s.log) (ht : R t now) (h : update a cfg now fuel packets s = some s') :
    ∃ t', R t' now ∧ Reach a cfg R t' (bag s') s'.log := by
  obtain ⟨t', h1, h2⟩ := receive_reach hrefl packets hs ht
  refine visitAll_reach hrefl (t := t') ?_ h1 h
  exact h2

/-- Every run is a sequence of moves. -/
theorem run_reach {fuel : ℕ} {steps : List Step} {s s' : State σ} {t : ℕ}
    (hs : Reach a cfg (fun _ _ => True) t (bag s) s.log) (h : run a cfg fuel s steps = some s') :
    ∃ t', Reach a cfg (fun _ _ => True) t' (bag s') s'.log := by
  induction steps generalizing s t with
  | nil => cases h; exact ⟨t, hs⟩
  | cons x xs ih =>
    rw [run] at h
    cases x with
    | command c =>
      refine ih (s := execute s c) (t := t) ?_ h
      rw [execute_bag, execute_log]
      exact hs.issue c
    | update now packets =>
      rw [step] at h
      cases hu : update a cfg now fuel packets s with
      | none => rw [hu] at h; exact absurd h (by simp)
      | some u =>
        rw [hu] at h
        obtain ⟨t', -, h2⟩ := update_reach (fun _ => trivial) hs trivial hu
        exact ih h2 h

theorem run_init_reach {fuel : ℕ} {steps : List Step} {x : σ} {s : State σ} (h : run a cfg fuel (init x) steps = some s) :
    ∃ t, Reach a cfg (fun _ _ => True) t (bag s) s.log :=
  run_reach (s := init x) (t := 0) Reach.init h

/-- Every run with a clock which does not go backwards. -/
theorem run_reach_le {fuel : ℕ} {steps : List Step} {s s' : State σ} {t : ℕ}
    (hs : Reach a cfg (· ≤ ·) t (bag s) s.log) (htimes : (t :: Step.times steps).IsChain (· ≤ ·))
    (h : run a cfg fuel s steps = some s') :
    ∃ t', Reach a cfg (· ≤ ·) t' (bag s') s'.log := by
  induction steps generalizing s t with
  | nil => cases h; exact ⟨t, hs⟩
  | cons x xs ih =>
    rw [run] at h
    cases x with
    | command c =>
      refine ih (s := execute s c) (t := t) ?_ htimes h
      rw [execute_bag, execute_log]
      exact hs.issue c
    | update now packets =>
      rw [step] at h
      rw [Step.times] at htimes
      rw [List.isChain_cons_cons] at htimes
      cases hu : update a cfg now fuel packets s with
      | none => rw [hu] at h; exact absurd h (by simp)
      | some u =>
        rw [hu] at h
        obtain ⟨t', h1, h2⟩ := update_reach (fun _ => le_refl _) hs htimes.1 hu
        refine ih h2 ?_ h
        cases hx : Step.times xs with
        | nil => simp
        | cons t2 ts =>
          rw [hx, List.isChain_cons_cons] at htimes
          rw [List.isChain_cons_cons]
          exact ⟨le_trans h1 htimes.2.1, htimes.2.2⟩

/-! ## The log grows -/

theorem Move_log {now : ℕ} {b b' : Multiset Entry} {log log' : List Obs} (m : Move a cfg now b log b' log') :
    ∃ l, log' = log ++ l := by
  cases m <;> first | exact ⟨_, rfl⟩ | exact ⟨[], by simp⟩

theorem visitAll_log {now fuel : ℕ} {s s' : State σ} (h : visitAll a cfg now fuel s = some s') :
    ∃ l, s'.log = s.log ++ l := by
  induction fuel generalizing s with
  | zero => exact absurd h (by simp [visitAll])
  | succ fuel ih =>
    rw [visitAll] at h
    cases hl : s.after with
    | nil => rw [hl] at h; cases h; exact ⟨[], by simp⟩
    | cons e l =>
      rw [hl] at h
      obtain ⟨l1, h1⟩ := Move_log (visit_move a cfg now s e l hl)
      obtain ⟨l2, h2⟩ := ih h
      exact ⟨l1 ++ l2, by rw [h2, h1, List.append_assoc]⟩

theorem receive_log {now : ℕ} (packets : List (Header × Payload)) (s : State σ) :
    ∃ l, (packets.foldl (fun s hp => updateOnceRx a now hp.1 hp.2 s) s).log = s.log ++ l := by
  induction packets generalizing s with
  | nil => exact ⟨[], by simp⟩
  | cons hp ps ih =>
    obtain ⟨l1, h1⟩ := Move_log (updateOnceRx_move a ⟨0, 0⟩ now hp.1 hp.2 s)
    obtain ⟨l2, h2⟩ := ih (updateOnceRx a now hp.1 hp.2 s)
    exact ⟨l1 ++ l2, by rw [List.foldl_cons, h2, h1, List.append_assoc]⟩

/-! ## Induction over the moves -/

/-- What holds of all entries and is kept by every move. -/
theorem Reach.entries {t : ℕ} {b : Multiset Entry} {log : List Obs} (h : Reach a cfg R t b log) (I : List Obs → Entry → Prop)
    (hmono : ∀ l m e, I l e → I (l ++ m) e)
    (hnew : ∀ l c, .issued c ∈ l → I l (newEntry c))
    (hack : ∀ l e k, I l e → e.callback = some k →
      I l ⟨e.callback, e.header, e.payload, .waitForResponse, e.time, e.tries⟩)
    (hinner : ∀ l e k now, I l e → e.callback = some k → e.phase = .transmissionPending →
      e.header.kind = .request → I l ⟨e.callback, e.header, e.payload, .waitForResponse,
        Timer.restart 65536 now cfg.responseTimeout e.time, e.tries⟩)
    (hsend : ∀ l e now, I l e → e.phase = .transmissionPending → e.header.destination ≠ 0 →
      I l ⟨e.callback, e.header, e.payload, .waitForAck,
        Timer.restart 65536 now cfg.acknowledgeTimeout e.time, e.tries⟩)
    (hagain : ∀ l e now, I l e → e.phase = .waitForAck → e.tries < 2 → I l ⟨e.callback, e.header, e.payload, .waitForAck,
      Timer.restart 65536 now cfg.acknowledgeTimeout (Timer.isExpired 65536 now e.time).1, e.tries + 1⟩)
    (hwait : ∀ l e now, I l e → e.phase = .waitForAck → (Timer.isExpired 65536 now e.time).2 = false →
      I l ⟨e.callback, e.header, e.payload, e.phase, (Timer.isExpired 65536 now e.time).1, e.tries⟩) :
    ∀ e ∈ b, I log e := by
  have hnews : ∀ (cs : List Command) (l m n : List Obs), ∀ e ∈ news cs, I (l ++ (m ++ issues cs ++ n)) e := by
    intro cs l m n e he
    simp only [news, Multiset.mem_coe, List.mem_map] at he
    obtain ⟨c, hc, rfl⟩ := he
    refine hnew _ c ?_
    simp only [List.mem_append, issues, List.mem_map]
    exact Or.inr (Or.inl (Or.inr ⟨c, hc, rfl⟩))
  have hnews' : ∀ (cs : List Command) (l m : List Obs), ∀ e ∈ news cs, I (l ++ (m ++ issues cs)) e := by
    intro cs l m e he
    have := hnews cs l m [] e he
    rwa [List.append_nil] at this
  induction h with
  | init => simp
  | issue c h ih =>
    intro e he
    rcases Multiset.mem_add.mp he with he | he
    · exact hmono _ _ _ (ih e he)
    · rw [Multiset.mem_singleton] at he; subst he; exact hnew _ c (by simp)
  | move h ht m ih =>
    cases m with
    | rxRequest ok hk ha happ =>
      intro e he
      rcases Multiset.mem_add.mp he with he | he
      · exact hmono _ _ _ (ih e he)
      · exact hnews _ _ _ _ e he
    | rxNone hr hn => exact fun e he => hmono _ _ _ (ih e he)
    | rxDefault e hr hf hc => intro e' he'; exact hmono _ _ _ (ih e' (Multiset.mem_cons_of_mem he'))
    | rxAck e k hk ha hf hc =>
      intro e' he'
      rcases Multiset.mem_cons.mp he' with rfl | he'
      · exact hmono _ _ _ (hack _ e k (ih e (Multiset.mem_cons_self _ _)) hc)
      · exact hmono _ _ _ (ih e' (Multiset.mem_cons_of_mem he'))
    | rxAckResponse e k hk ha hf hc => intro e' he'; exact hmono _ _ _ (ih e' (Multiset.mem_cons_of_mem he'))
    | rxResponse e k hk ha hf hc =>
      intro e' he'
      rcases Multiset.mem_add.mp he' with he' | he'
      · exact hmono _ _ _ (ih e' (Multiset.mem_cons_of_mem he'))
      · exact hnews _ _ _ _ e' he'
    | event e hp hd =>
      intro e' he'
      rcases Multiset.mem_add.mp he' with he' | he'
      · exact hmono _ _ _ (ih e' (Multiset.mem_cons_of_mem he'))
      · exact hnews _ _ _ _ e' he'
    | innerCall e k hp hd hv hk hc =>
      intro e' he'
      rcases Multiset.mem_cons.mp he' with rfl | he'
      · exact hmono _ _ _ (hinner _ e k _ (ih e (Multiset.mem_cons_self _ _)) hc hp hk)
      · rcases Multiset.mem_add.mp he' with he' | he'
        · exact hmono _ _ _ (ih e' (Multiset.mem_cons_of_mem he'))
        · exact hnews' _ _ _ e' he'
    | innerDefault e hp hd hv hk hc =>
      intro e' he'
      rcases Multiset.mem_add.mp he' with he' | he'
      · exact hmono _ _ _ (ih e' (Multiset.mem_cons_of_mem he'))
      · exact hnews' _ _ _ e' he'
    | innerAnswer e q k hp hd hv hk hq hc =>
      intro e' he'
      rcases Multiset.mem_add.mp he' with he' | he'
      · exact hmono _ _ _ (ih e' (Multiset.mem_cons_of_mem (Multiset.mem_cons_of_mem he')))
      · exact hnews' _ _ _ e' he'
    | innerDrop e q hp hd hv hk hq hc =>
      intro e' he'; exact hmono _ _ _ (ih e' (Multiset.mem_cons_of_mem (Multiset.mem_cons_of_mem he')))
    | innerNone e hp hd hv hk => intro e' he'; exact hmono _ _ _ (ih e' (Multiset.mem_cons_of_mem he'))
    | transmit e hp hd hv =>
      intro e' he'
      rcases Multiset.mem_cons.mp he' with rfl | he'
      · exact hmono _ _ _ (hsend _ e _ (ih e (Multiset.mem_cons_self _ _)) hp hd)
      · exact hmono _ _ _ (ih e' (Multiset.mem_cons_of_mem he'))
    | giveUp e k hp ht hn hc =>
      intro e' he'
      rcases Multiset.mem_add.mp he' with he' | he'
      · exact hmono _ _ _ (ih e' (Multiset.mem_cons_of_mem he'))
      · exact hnews' _ _ _ e' he'
    | drop e hp ht hn hc => intro e' he'; exact ih e' (Multiset.mem_cons_of_mem he')
    | retransmit e hp ht hn =>
      intro e' he'
      rcases Multiset.mem_cons.mp he' with rfl | he'
      · exact hmono _ _ _ (hagain _ e _ (ih e (Multiset.mem_cons_self _ _)) hp hn)
      · exact hmono _ _ _ (ih e' (Multiset.mem_cons_of_mem he'))
    | wait e hp ht =>
      intro e' he'
      rcases Multiset.mem_cons.mp he' with rfl | he'
      · exact hwait _ e _ (ih e (Multiset.mem_cons_self _ _)) hp ht
      · exact ih e' (Multiset.mem_cons_of_mem he')
    | idle => exact ih

/-- Every entry stands for a command, and events do not wait for an acknowledge. -/
theorem Reach.origin {t : ℕ} {b : Multiset Entry} {log : List Obs} (h : Reach a cfg R t b log) :
    ∀ e ∈ b, (∃ c, .issued c ∈ log ∧ message c = (e.header, e.payload) ∧ callbackOf c = e.callback) ∧
      (e.phase = .waitForAck → e.header.destination ≠ 0) := by
  refine h.entries (fun l e => (∃ c, .issued c ∈ l ∧ message c = (e.header, e.payload) ∧ callbackOf c = e.callback) ∧
    (e.phase = .waitForAck → e.header.destination ≠ 0)) ?_ ?_ ?_ ?_ ?_ ?_ ?_
  · rintro l m e ⟨⟨c, h1, h2⟩, h3⟩; exact ⟨⟨c, List.mem_append_left _ h1, h2⟩, h3⟩
  · intro l c hc; exact ⟨⟨c, hc, rfl, rfl⟩, fun h => by simp [newEntry, entry] at h⟩
  · rintro l e k ⟨h1, h2⟩ hc; exact ⟨h1, fun h => by simp at h⟩
  · rintro l e k now ⟨h1, h2⟩ hc hp hk; exact ⟨h1, fun h => by simp at h⟩
  · rintro l e now ⟨h1, h2⟩ hp hd; exact ⟨h1, fun _ => hd⟩
  · rintro l e now ⟨h1, h2⟩ hp hn; exact ⟨h1, fun _ => h2 hp⟩
  · rintro l e now ⟨h1, h2⟩ hp hn; exact ⟨h1, h2⟩

theorem message_ack (c : Command) : (message c).1.ack = false := by cases c <;> rfl

theorem callbackOf_some {c : Command} {k : ℕ} (h : callbackOf c = some k) : ∃ own receiver action p,
    c = .callAction own receiver action p (some k) := by
  cases c with
  | callAction own receiver action p k' => simp only [callbackOf] at h; subst h; exact ⟨_, _, _, _, rfl⟩
  | publishEvent => simp [callbackOf] at h
  | sendResponse => simp [callbackOf] at h
  | sendNegativeResponse => simp [callbackOf] at h

/-- No entry is an acknowledge. -/
theorem Reach.not_ack {t : ℕ} {b : Multiset Entry} {log : List Obs} (h : Reach a cfg R t b log) :
    ∀ e ∈ b, e.header.ack = false := by
  intro e he
  obtain ⟨⟨c, -, h1, -⟩, -⟩ := h.origin e he
  have := message_ack c
  rw [h1] at this
  exact this

/-- What holds of every observation and what precedes it. -/
def Earlier (Q : List Obs → Obs → Prop) (log : List Obs) : Prop :=
  ∀ l1 o l2, log = l1 ++ o :: l2 → Q l1 o

theorem earlier_nil (Q : List Obs → Obs → Prop) : Earlier Q [] := by
  intro l1 o l2 h; simp at h

theorem earlier_append_singleton {Q : List Obs → Obs → Prop} {log : List Obs} {o : Obs} (h : Earlier Q log) (ho : Q log o) :
    Earlier Q (log ++ [o]) := by
  intro l1 o' l2 he
  rcases List.eq_nil_or_concat l2 with rfl | ⟨l2', y, rfl⟩
  · obtain ⟨rfl, h2⟩ := List.append_inj' he rfl
    cases h2; exact ho
  · have he' : log ++ [o] = (l1 ++ o' :: l2') ++ [y] := by rw [he]; simp
    obtain ⟨h1, -⟩ := List.append_inj' he' rfl
    exact h l1 o' l2' h1

theorem earlier_append_issues {Q : List Obs → Obs → Prop} (hQ : ∀ l c, Q l (.issued c)) {log : List Obs} (cs : List Command)
    (h : Earlier Q log) : Earlier Q (log ++ issues cs) := by
  induction cs generalizing log with
  | nil => simpa [issues] using h
  | cons c cs ih =>
    have := ih (earlier_append_singleton h (hQ log c))
    simpa [issues] using this

/-! ## The timeout -/

theorem expired_iff {t now T : ℕ} : (Modm.Timer.isExpired 65536 now ⟨t % 65536, T, Modm.Timer.ARMED⟩).2 = true ↔
    T ≤ (now % 65536 + 65536 - t % 65536) % 65536 := by
  simp only [Modm.Timer.isExpired, Modm.Timer.state, Modm.Timer.checkExpiration, Modm.Timer.sub, Modm.Timer.now]
  by_cases h : T ≤ (now % 65536 + 65536 - t % 65536) % 65536
  · simp [h, Modm.Timer.ARMED, Modm.Timer.EXPIRED, Modm.Timer.STATUS_MASK]
  · simp [h, Modm.Timer.ARMED, Modm.Timer.EXPIRED, Modm.Timer.STATUS_MASK]

theorem expired_le {t now T : ℕ} (h : (Modm.Timer.isExpired 65536 now ⟨t % 65536, T, Modm.Timer.ARMED⟩).2 = true) (ht : t ≤ now) :
    t + T ≤ now := by
  rw [expired_iff] at h
  omega

theorem not_expired {t now T : ℕ} (h : (Modm.Timer.isExpired 65536 now ⟨t % 65536, T, Modm.Timer.ARMED⟩).2 = false) :
    (Modm.Timer.isExpired 65536 now ⟨t % 65536, T, Modm.Timer.ARMED⟩).1 = ⟨t % 65536, T, Modm.Timer.ARMED⟩ := by
  have h' : ¬ T ≤ (now % 65536 + 65536 - t % 65536) % 65536 := fun hh => by rw [expired_iff.mpr hh] at h; simp at h
  simp only [Modm.Timer.isExpired, Modm.Timer.state, Modm.Timer.checkExpiration, Modm.Timer.sub, Modm.Timer.now]
  simp [h']

/-! ## Counting, one observation at a time -/

theorem ordered_append (h : Header) (p : Payload) (l m : List Obs) :
    ordered h p (l ++ m) = ordered h p l + ordered h p m := by
  simp [ordered]

theorem sendings_append (h : Header) (p : Payload) (l m : List Obs) :
    sendings h p (l ++ m) = sendings h p l + sendings h p m := by
  simp [sendings]

@[simp] theorem ordered_nil (h : Header) (p : Payload) : ordered h p [] = 0 := rfl

@[simp] theorem ordered_cons_issued (h : Header) (p : Payload) (c : Command) (l : List Obs) :
    ordered h p (.issued c :: l) = (if message c = (h, p) then 1 else 0) + ordered h p l := by
  simp [ordered, List.countP_cons, Nat.add_comm]

@[simp] theorem ordered_cons_received (h : Header) (p : Payload) (h' : Header) (p' : Payload) (l : List Obs) :
    ordered h p (.received h' p' :: l) = ordered h p l := by
  simp [ordered]

@[simp] theorem ordered_cons_sent (h : Header) (p : Payload) (t : ℕ) (h' : Header) (p' : Payload) (l : List Obs) :
    ordered h p (.sent t h' p' :: l) = ordered h p l := by
  simp [ordered]

@[simp] theorem ordered_cons_delivered (h : Header) (p : Payload) (h' : Header) (p' : Payload) (l : List Obs) :
    ordered h p (.delivered h' p' :: l) = ordered h p l := by
  simp [ordered]

@[simp] theorem ordered_cons_called (h : Header) (p : Payload) (k : ℕ) (h' : Header) (p' : Payload) (l : List Obs) :
    ordered h p (.called k h' p' :: l) = ordered h p l := by
  simp [ordered]

@[simp] theorem sendings_nil (h : Header) (p : Payload) : sendings h p [] = 0 := rfl

@[simp] theorem sendings_cons_issued (h : Header) (p : Payload) (c : Command) (l : List Obs) :
    sendings h p (.issued c :: l) = sendings h p l := by
  simp [sendings]

@[simp] theorem sendings_cons_received (h : Header) (p : Payload) (h' : Header) (p' : Payload) (l : List Obs) :
    sendings h p (.received h' p' :: l) = sendings h p l := by
  simp [sendings]

@[simp] theorem sendings_cons_sent (h : Header) (p : Payload) (t : ℕ) (h' : Header) (p' : Payload) (l : List Obs) :
    sendings h p (.sent t h' p' :: l) = (if h' = h ∧ p' = p then 1 else 0) + sendings h p l := by
  simp [sendings, List.countP_cons, Nat.add_comm]

@[simp] theorem sendings_cons_delivered (h : Header) (p : Payload) (h' : Header) (p' : Payload) (l : List Obs) :
    sendings h p (.delivered h' p' :: l) = sendings h p l := by
  simp [sendings]

@[simp] theorem sendings_cons_called (h : Header) (p : Payload) (k : ℕ) (h' : Header) (p' : Payload) (l : List Obs) :
    sendings h p (.called k h' p' :: l) = sendings h p l := by
  simp [sendings]

theorem deliveries_append (h : Header) (p : Payload) (l m : List Obs) : deliveries h p (l ++ m) = deliveries h p l + deliveries h p m := by
  simp [deliveries]

@[simp] theorem deliveries_nil (h : Header) (p : Payload) : deliveries h p [] = 0 := rfl

@[simp] theorem deliveries_cons_issued (h : Header) (p : Payload) (c : Command) (l : List Obs) :
    deliveries h p (.issued c :: l) = deliveries h p l := by
  simp [deliveries]

@[simp] theorem deliveries_cons_received (h : Header) (p : Payload) (h' : Header) (p' : Payload) (l : List Obs) :
    deliveries h p (.received h' p' :: l) = deliveries h p l := by
  simp [deliveries]

@[simp] theorem deliveries_cons_sent (h : Header) (p : Payload) (t : ℕ) (h' : Header) (p' : Payload) (l : List Obs) :
    deliveries h p (.sent t h' p' :: l) = deliveries h p l := by
  simp [deliveries]

@[simp] theorem deliveries_cons_delivered (h : Header) (p : Payload) (h' : Header) (p' : Payload) (l : List Obs) :
    deliveries h p (.delivered h' p' :: l) = (if h' = h ∧ p' = p then 1 else 0) + deliveries h p l := by
  simp [deliveries, List.countP_cons, Nat.add_comm]

@[simp] theorem deliveries_cons_called (h : Header) (p : Payload) (k : ℕ) (h' : Header) (p' : Payload) (l : List Obs) :
    deliveries h p (.called k h' p' :: l) = deliveries h p l := by
  simp [deliveries]

theorem arrivals_append (h : Header) (p : Payload) (l m : List Obs) : arrivals h p (l ++ m) = arrivals h p l + arrivals h p m := by
  simp [arrivals]

@[simp] theorem arrivals_nil (h : Header) (p : Payload) : arrivals h p [] = 0 := rfl

@[simp] theorem arrivals_cons_issued (h : Header) (p : Payload) (c : Command) (l : List Obs) :
    arrivals h p (.issued c :: l) = arrivals h p l := by
  simp [arrivals]

@[simp] theorem arrivals_cons_received (h : Header) (p : Payload) (h' : Header) (p' : Payload) (l : List Obs) :
    arrivals h p (.received h' p' :: l) = (if h' = h ∧ p' = p then 1 else 0) + arrivals h p l := by
  simp [arrivals, List.countP_cons, Nat.add_comm]

@[simp] theorem arrivals_cons_sent (h : Header) (p : Payload) (t : ℕ) (h' : Header) (p' : Payload) (l : List Obs) :
    arrivals h p (.sent t h' p' :: l) = arrivals h p l := by
  simp [arrivals]

@[simp] theorem arrivals_cons_delivered (h : Header) (p : Payload) (h' : Header) (p' : Payload) (l : List Obs) :
    arrivals h p (.delivered h' p' :: l) = arrivals h p l := by
  simp [arrivals]

@[simp] theorem arrivals_cons_called (h : Header) (p : Payload) (k : ℕ) (h' : Header) (p' : Payload) (l : List Obs) :
    arrivals h p (.called k h' p' :: l) = arrivals h p l := by
  simp [arrivals]

theorem arrivalsOf_append (h : Header) (l m : List Obs) : arrivalsOf h (l ++ m) = arrivalsOf h l + arrivalsOf h m := by
  simp [arrivalsOf]

@[simp] theorem arrivalsOf_nil (h : Header) : arrivalsOf h [] = 0 := rfl

@[simp] theorem arrivalsOf_cons_issued (h : Header) (c : Command) (l : List Obs) :
    arrivalsOf h (.issued c :: l) = arrivalsOf h l := by
  simp [arrivalsOf]

@[simp] theorem arrivalsOf_cons_received (h : Header) (h' : Header) (p' : Payload) (l : List Obs) :
    arrivalsOf h (.received h' p' :: l) = (if h' = h then 1 else 0) + arrivalsOf h l := by
  simp [arrivalsOf, List.countP_cons, Nat.add_comm]

@[simp] theorem arrivalsOf_cons_sent (h : Header) (t : ℕ) (h' : Header) (p' : Payload) (l : List Obs) :
    arrivalsOf h (.sent t h' p' :: l) = arrivalsOf h l := by
  simp [arrivalsOf]

@[simp] theorem arrivalsOf_cons_delivered (h : Header) (h' : Header) (p' : Payload) (l : List Obs) :
    arrivalsOf h (.delivered h' p' :: l) = arrivalsOf h l := by
  simp [arrivalsOf]

@[simp] theorem arrivalsOf_cons_called (h : Header) (k : ℕ) (h' : Header) (p' : Payload) (l : List Obs) :
    arrivalsOf h (.called k h' p' :: l) = arrivalsOf h l := by
  simp [arrivalsOf]

theorem sendingsOf_append (h : Header) (l m : List Obs) : sendingsOf h (l ++ m) = sendingsOf h l + sendingsOf h m := by
  simp [sendingsOf]

@[simp] theorem sendingsOf_nil (h : Header) : sendingsOf h [] = 0 := rfl

@[simp] theorem sendingsOf_cons_issued (h : Header) (c : Command) (l : List Obs) :
    sendingsOf h (.issued c :: l) = sendingsOf h l := by
  simp [sendingsOf]

@[simp] theorem sendingsOf_cons_received (h : Header) (h' : Header) (p' : Payload) (l : List Obs) :
    sendingsOf h (.received h' p' :: l) = sendingsOf h l := by
  simp [sendingsOf]

@[simp] theorem sendingsOf_cons_sent (h : Header) (t : ℕ) (h' : Header) (p' : Payload) (l : List Obs) :
    sendingsOf h (.sent t h' p' :: l) = (if h' = h then 1 else 0) + sendingsOf h l := by
  simp [sendingsOf, List.countP_cons, Nat.add_comm]

@[simp] theorem sendingsOf_cons_delivered (h : Header) (h' : Header) (p' : Payload) (l : List Obs) :
    sendingsOf h (.delivered h' p' :: l) = sendingsOf h l := by
  simp [sendingsOf]

@[simp] theorem sendingsOf_cons_called (h : Header) (k : ℕ) (h' : Header) (p' : Payload) (l : List Obs) :
    sendingsOf h (.called k h' p' :: l) = sendingsOf h l := by
  simp [sendingsOf]

end Modm.Dispatcher
