import Verif.Props.Dispatcher

set_option autoImplicit false

/-!
# C125: an action call which nobody acknowledges

One action call, to a component which is not on this board, among arbitrary other traffic.
-/

namespace Props.Dispatcher

open Modm.Dispatcher Modm.Spec.Dispatcher

variable {σ : Type} {a : App σ} {cfg : Config} {fuel : ℕ} {steps : List Step} {x : σ} {s : State σ}

/-- The only packet ordered with the header `hd` is that of `c0`, the callback `cb` is given to `c0` only, and nobody
answers. -/
structure Alone (hd : Header) (cb : Option ℕ) (c0 : Command) (log : List Obs) : Prop where
  once : orderedOf hd log ≤ 1
  only : ∀ c, .issued c ∈ log → (message c).1 = hd ∨ (cb ≠ none ∧ callbackOf c = cb) → c = c0
  quiet : ∀ c, .issued c ∈ log → ¬ answers (message c).1 hd
  silent : ∀ h p, .received h p ∈ log → ¬ answers h hd

private theorem orderedOf_append (hd : Header) (l m : List Obs) : orderedOf hd (l ++ m) = orderedOf hd l + orderedOf hd m := by
  simp [orderedOf]

private theorem story_append (hd : Header) (cb : Option ℕ) (l m : List Obs) :
    story hd cb (l ++ m) = story hd cb l ++ story hd cb m := by
  simp [story]

private theorem story_issues (hd : Header) (cb : Option ℕ) (cs : List Command) : story hd cb (issues cs) = [] := by
  simp [story, issues]

private theorem Alone.mono {hd : Header} {cb : Option ℕ} {c0 : Command} {l m : List Obs} (h : Alone hd cb c0 (l ++ m)) :
    Alone hd cb c0 l := by
  refine ⟨?_, fun c hc => h.only c (List.mem_append_left _ hc), fun c hc => h.quiet c (List.mem_append_left _ hc),
    fun h' p hc => h.silent h' p (List.mem_append_left _ hc)⟩
  have := h.once
  rw [orderedOf_append] at this
  omega

/-! ## The entries with this header -/

private def mine (hd : Header) (l : List Entry) : List Entry := l.filter fun e => e.header = hd

private theorem mine_append (hd : Header) (l m : List Entry) : mine hd (l ++ m) = mine hd l ++ mine hd m := by
  simp [mine]

private theorem mine_cons_ne {hd : Header} {e : Entry} (l : List Entry) (h : e.header ≠ hd) : mine hd (e :: l) = mine hd l := by
  simp [mine, h]

private theorem mine_cons_eq {hd : Header} {e : Entry} (l : List Entry) (h : e.header = hd) :
    mine hd (e :: l) = e :: mine hd l := by
  simp [mine, h]

private theorem mine_nil (hd : Header) : mine hd [] = [] := rfl

private theorem mine_eraseIdx {hd : Header} {l : List Entry} {i : ℕ} {q : Entry} (hi : l[i]? = some q) (hq : q.header ≠ hd) :
    mine hd (l.eraseIdx i) = mine hd l := by
  induction l generalizing i with
  | nil => simp at hi
  | cons e l ih =>
    cases i with
    | zero =>
      simp only [List.getElem?_cons_zero, Option.some.injEq] at hi
      subst hi
      rw [List.eraseIdx_cons_zero, mine_cons_ne l hq]
    | succ i =>
      rw [List.getElem?_cons_succ] at hi
      rw [List.eraseIdx_cons_succ]
      by_cases he : e.header = hd
      · rw [mine_cons_eq _ he, mine_cons_eq _ he, ih hi]
      · rw [mine_cons_ne _ he, mine_cons_ne _ he, ih hi]

private theorem mine_responses {hd : Header} (hk : hd.kind = .request) (cs : List Command) : mine hd (responses cs) = [] := by
  rw [mine, List.filter_eq_nil_iff]
  intro e he
  simp only [responses, List.mem_reverse, List.mem_map, List.mem_filter] at he
  obtain ⟨c, ⟨-, hc⟩, rfl⟩ := he
  simp only [decide_eq_true_eq]
  intro h
  rw [← h] at hk
  cases c <;> simp [isResponse, newEntry, entry, message] at hc hk

private theorem mine_messages {hd : Header} {cb : Option ℕ} {c0 : Command} (hk : hd.kind = .request) (cs : List Command)
    (h : ∀ c ∈ cs, (message c).1 = hd ∨ (cb ≠ none ∧ callbackOf c = cb) → c = c0) :
    mine hd (messages cs) = List.replicate (orderedOf hd (issues cs)) (newEntry c0) := by
  induction cs with
  | nil => rfl
  | cons c cs ih =>
    replace ih := ih (fun c hc => h c (List.mem_cons_of_mem _ hc))
    have ho : orderedOf hd (issues (c :: cs)) = (if (message c).1 = hd then 1 else 0) + orderedOf hd (issues cs) := by
      simp [orderedOf, issues, List.countP_cons, Nat.add_comm]
    by_cases hm : (message c).1 = hd
    · have hcc := h c List.mem_cons_self (Or.inl hm)
      have hr : isResponse c = false := by
        rw [← hm] at hk
        cases c <;> simp [isResponse, message] at hk ⊢
      have hmes : messages (c :: cs) = newEntry c :: messages cs := by
        simp [messages, hr]
      rw [ho, if_pos hm, hmes, mine_cons_eq _ (show (newEntry c).header = hd from hm), ih, hcc, Nat.add_comm,
        List.replicate_succ]
    · rw [ho, if_neg hm, Nat.zero_add, ← ih]
      cases hr : isResponse c with
      | true => simp [messages, hr]
      | false =>
        have hmes : messages (c :: cs) = newEntry c :: messages cs := by
          simp [messages, hr]
        rw [hmes, mine_cons_ne _ (show (newEntry c).header ≠ hd from hm)]

/-- What is known of all entries. -/
private def clean (hd : Header) (cb : Option ℕ) (e : Entry) : Prop :=
  ¬ answers e.header hd ∧ (∀ k, e.callback = some k → cb = some k → e.header = hd)

private theorem reach_clean {R : ℕ → ℕ → Prop} {t : ℕ} {b : Multiset Entry} {log : List Obs} {hd : Header} {cb : Option ℕ}
    {c0 : Command} (h0 : (message c0).1 = hd) (hal : Alone hd cb c0 log) (h : Reach a cfg R t b log) :
    ∀ e ∈ b, clean hd cb e := by
  intro e he
  obtain ⟨⟨c, h1, h2, h3⟩, -⟩ := h.origin e he
  refine ⟨?_, ?_⟩
  · have := hal.quiet c h1
    rwa [h2] at this
  · intro k hk hcb
    have := hal.only c h1 (Or.inr ⟨by simp [hcb], by rw [h3, hk, hcb]⟩)
    rw [← this, h2] at h0
    exact h0

private theorem fits_answers' {e : Entry} {h : Header} (hf : e.headerFits h = true) : answers h e.header := by
  simp only [Entry.headerFits, Bool.and_eq_true, beq_iff_eq] at hf
  exact ⟨hf.1.1, hf.1.2, hf.2⟩

private theorem story_cons_sent_ne {hd h : Header} {cb : Option ℕ} {t : ℕ} {p : Payload} (l : List Obs) (hn : h ≠ hd) :
    story hd cb (.sent t h p :: l) = story hd cb l := by
  simp [story, hn]

private theorem story_cons_sent_eq {hd : Header} {cb : Option ℕ} {t : ℕ} {p : Payload} (l : List Obs) :
    story hd cb (.sent t hd p :: l) = .sent t hd p :: story hd cb l := by
  simp [story]

private theorem story_cons_called_ne {hd h : Header} {cb : Option ℕ} {k : ℕ} {p : Payload} (l : List Obs) (hn : some k ≠ cb) :
    story hd cb (.called k h p :: l) = story hd cb l := by
  simp [story, hn]

private theorem story_cons_called_eq {hd h : Header} {k : ℕ} {p : Payload} (l : List Obs) :
    story hd (some k) (.called k h p :: l) = .called k h p :: story hd (some k) l := by
  simp [story]

private theorem story_cons_received {hd h : Header} {cb : Option ℕ} {p : Payload} (l : List Obs) :
    story hd cb (.received h p :: l) = story hd cb l := by
  simp [story]

private theorem story_cons_delivered {hd h : Header} {cb : Option ℕ} {p : Payload} (l : List Obs) :
    story hd cb (.delivered h p :: l) = story hd cb l := by
  simp [story]

private theorem story_nil (hd : Header) (cb : Option ℕ) : story hd cb [] = [] := rfl

private theorem orderedOf_nil (hd : Header) : orderedOf hd [] = 0 := rfl

/-- Everything which a step adds to the log, seen from the call. -/
private theorem alone_issues {hd : Header} {cb : Option ℕ} {c0 : Command} {log o1 o2 : List Obs} {cs : List Command}
    (hal : Alone hd cb c0 (log ++ (o1 ++ issues cs ++ o2))) :
    ∀ c ∈ cs, (message c).1 = hd ∨ (cb ≠ none ∧ callbackOf c = cb) → c = c0 := by
  intro c hc
  refine hal.only c ?_
  simp only [List.mem_append, issues, List.mem_map]
  exact Or.inr (Or.inl (Or.inr ⟨c, hc, rfl⟩))

/-- A round of the loop for another entry. -/
private theorem visit_other {hd : Header} {cb : Option ℕ} {c0 : Command} {now : ℕ} {s : State σ} {e : Entry} {l : List Entry}
    (hk : hd.kind = .request) (hl : s.after = e :: l) (hne : e.header ≠ hd) (hcl : ∀ e ∈ s.before ++ s.after, clean hd cb e)
    (hal : Alone hd cb c0 (visit a cfg now e s).log) :
    ∃ n, mine hd (visit a cfg now e s).before = mine hd s.before ∧
      mine hd (visit a cfg now e s).after = mine hd s.after ++ List.replicate n (newEntry c0) ∧
      orderedOf hd (visit a cfg now e s).log = orderedOf hd s.log + n ∧
      story hd cb (visit a cfg now e s).log = story hd cb s.log := by
  obtain ⟨cs, o1, o2, kept, l', x', hsh, hv⟩ := visit_shape a cfg now s e l hl
  have hce : clean hd cb e := hcl e (by rw [hl]; simp)
  have hlc : ∀ q ∈ l, clean hd cb q := fun q hq => hcl q (by rw [hl]; simp [hq])
  have hmem : ∀ {i : ℕ} {q : Entry}, l[i]? = some q → q ∈ l := fun h => List.mem_of_getElem? h
  have hq : ∀ {i : ℕ} {q : Entry}, q.isWaitingFor e.header = true → q.header ≠ hd := by
    intro i q hw hqh
    simp only [Entry.isWaitingFor, Bool.and_eq_true] at hw
    have := fits_answers' hw.2
    rw [hqh] at this
    exact hce.1 this
  rw [hv] at hal ⊢
  refine ⟨orderedOf hd (issues cs), ?_, ?_, ?_, ?_⟩
  · dsimp only
    rw [mine_append, mine_append, mine_responses hk, List.nil_append]
    have : mine hd kept = [] := by
      cases hsh <;> first | rfl | exact mine_cons_ne _ hne
    rw [this, List.append_nil]
  · dsimp only
    rw [mine_append, mine_messages hk cs (alone_issues hal), hl, mine_cons_ne _ hne]
    congr 1
    cases hsh with
    | innerCall k hp hd' hv' hk' hc => exact mine_cons_ne _ hne
    | innerAnswer i k q hp hd' hv' hk' hi hw hc => exact mine_eraseIdx hi (hq (i := i) hw)
    | innerDrop i q hp hd' hv' hk' hi hw hc => exact mine_eraseIdx hi (hq (i := i) hw)
    | _ => rfl
  · dsimp only
    rw [orderedOf_append, orderedOf_append, orderedOf_append]
    have h1 : orderedOf hd o1 = 0 := by cases hsh <;> rfl
    have h2 : orderedOf hd o2 = 0 := by cases hsh <;> rfl
    omega
  · dsimp only
    rw [story_append, story_append, story_append, story_issues]
    have h1 : story hd cb o1 = [] := by
      cases hsh with
      | innerAnswer i k q hp hd' hv' hk' hi hw hc =>
        rw [story_cons_sent_ne _ hne, story_cons_called_ne, story_nil]
        intro hcb
        exact hq (i := i) hw ((hlc q (hmem hi)).2 k hc hcb.symm)
      | giveUp k hp ht hn hc =>
        rw [story_cons_called_ne, story_nil]
        intro hcb
        exact hne (hce.2 k hc hcb.symm)
      | event => rw [story_cons_delivered, story_nil]
      | innerCall => rw [story_cons_sent_ne _ hne, story_cons_delivered, story_nil]
      | innerDefault => rw [story_cons_sent_ne _ hne, story_cons_delivered, story_nil]
      | innerDrop => rw [story_cons_sent_ne _ hne, story_nil]
      | innerNone => rw [story_cons_sent_ne _ hne, story_nil]
      | transmit => rw [story_cons_sent_ne _ hne, story_nil]
      | retransmit => rw [story_cons_sent_ne _ hne, story_nil]
      | drop => rfl
      | wait => rfl
      | idle => rfl
    have h2 : story hd cb o2 = [] := by
      cases hsh with
      | event => rw [story_cons_sent_ne _ hne, story_nil]
      | _ => rfl
    rw [h1, h2]; simp

/-- The reception of a packet which does not answer. -/
private theorem receive_other {hd : Header} {cb : Option ℕ} {c0 : Command} {now : ℕ} {s : State σ} {h : Header} {p : Payload}
    (hk : hd.kind = .request) (hack : hd.ack = false) (hcl : ∀ e ∈ s.before ++ s.after, clean hd cb e)
    (hal : Alone hd cb c0 (updateOnceRx a now h p s).log) :
    ∃ n, mine hd ((updateOnceRx a now h p s).before ++ (updateOnceRx a now h p s).after) =
        mine hd (s.before ++ s.after) ++ List.replicate n (newEntry c0) ∧
      orderedOf hd (updateOnceRx a now h p s).log = orderedOf hd s.log + n ∧
      story hd cb (updateOnceRx a now h p s).log = story hd cb s.log := by
  obtain ⟨cs, o1, o2, l', hsh, ho2, hlist, hlog⟩ := updateOnceRx_shape a now h p s
  rw [hlog] at hal ⊢
  rw [hlist]
  have hna : ¬ answers h hd := by
    refine hal.silent h p ?_
    cases hsh <;> simp
  have hfit : ∀ {e : Entry}, e.headerFits h = true → e.header ≠ hd := by
    intro e hf he
    have := fits_answers' hf
    rw [he] at this
    exact hna this
  refine ⟨orderedOf hd (issues cs), ?_, ?_, ?_⟩
  · rw [mine_append, mine_append, mine_responses hk, List.nil_append, mine_messages hk cs (alone_issues hal)]
    congr 1
    cases hsh with
    | request => rfl
    | none => rfl
    | default l1 l2 e hr hl hf hc => rw [hl, mine_append, mine_append, mine_cons_ne _ (hfit hf)]
    | ack l1 l2 e k hk ha hl hf hc =>
      rw [hl, mine_append, mine_append, mine_cons_ne _ (hfit hf)]
      rw [mine_cons_ne]
      exact hfit hf
    | ackResponse l1 l2 e k hk ha hl hf hc => rw [hl, mine_append, mine_append, mine_cons_ne _ (hfit hf)]
    | response l1 l2 e k hk ha hl hf hc => rw [hl, mine_append, mine_append, mine_cons_ne _ (hfit hf)]
  · rw [orderedOf_append, orderedOf_append, orderedOf_append]
    have h1 : orderedOf hd o1 = 0 := by cases hsh <;> rfl
    have h2 : orderedOf hd o2 = 0 := by rcases ho2 with rfl | rfl <;> rfl
    omega
  · rw [story_append, story_append, story_append, story_issues]
    have h1 : story hd cb o1 = [] := by
      cases hsh with
      | response l1 l2 e k hk ha hl hf hc =>
        rw [story_cons_received, story_cons_called_ne, story_nil]
        intro hcb
        exact hfit hf ((hcl e (by rw [hl]; simp)).2 k hc hcb.symm)
      | _ => rfl
    have h2 : story hd cb o2 = [] := by
      rcases ho2 with rfl | rfl
      · rfl
      · rw [story_cons_sent_ne, story_nil]
        intro hh
        rw [← hh] at hack
        simp [ackOf] at hack
    rw [h1, h2]; simp

/-! ## The states of the call -/

/-- What has become of the call. -/
private inductive Status where
  | unborn | pending | waiting (last n : ℕ) | over

namespace Status

/-- The entries of the call. -/
private def entries (T : ℕ) (hd : Header) (q : Payload) (cb : Option ℕ) : Status → List Entry
  | unborn => []
  | pending => [entry hd q cb]
  | waiting last n => [⟨cb, hd, q, .waitForAck, ⟨last % 65536, T, Modm.Timer.ARMED⟩, 2 - n⟩]
  | over => []

private def count : Status → ℕ
  | unborn => 0
  | _ => 1

/-- An `update` at the time `now`. -/
private def next (T now : ℕ) : Status → Status
  | unborn => unborn
  | pending => waiting now 2
  | waiting last n => if last + T ≤ now then (match n with | 0 => over | n + 1 => waiting now n) else waiting last n
  | over => over

private def shows (T : ℕ) (hd : Header) (q : Payload) (cb : Option ℕ) (now : ℕ) : Status → List Obs
  | unborn => []
  | pending => [.sent now hd q]
  | waiting last n => if last + T ≤ now then
      (match n with | 0 => cb.toList.map fun k => .called k (timeoutOf hd) q | _ + 1 => [.sent now hd q]) else []
  | over => []

/-- What is known after an `update` at the time `t`. -/
private def ok (T t : ℕ) : Status → Prop
  | waiting last n => n ≤ 2 ∧ last ≤ t ∧ (t = last ∨ t < last + T)
  | _ => True

/-- All further observations. -/
private def tell (T : ℕ) (hd : Header) (q : Payload) (cb : Option ℕ) : Status → List ℕ → List Obs
  | _, [] => []
  | st, u :: us => st.shows T hd q cb u ++ tell T hd q cb (st.next T u) us

private theorem tell_over (T : ℕ) (hd : Header) (q : Payload) (cb : Option ℕ) (us : List ℕ) : tell T hd q cb over us = [] := by
  induction us with
  | nil => rfl
  | cons u us ih => rw [tell, next, ih]; rfl

private theorem tell_waiting (T : ℕ) (hd : Header) (q : Payload) (cb : Option ℕ) (last n : ℕ) (us : List ℕ) :
    tell T hd q cb (waiting last n) us = resend T hd q cb last n us := by
  induction us generalizing last n with
  | nil => unfold resend; rfl
  | cons u us ih =>
    rw [tell]
    unfold resend shows next
    dsimp only
    by_cases h : last + T ≤ u
    · rw [if_pos h, if_pos h, if_pos h]
      cases n with
      | zero => simp only [tell_over, List.append_nil]
      | succ n => simp only [ih, List.singleton_append]
    · rw [if_neg h, if_neg h, if_neg h, List.nil_append, ih]

private theorem tell_pending (T : ℕ) (hd : Header) (q : Payload) (cb : Option ℕ) (us : List ℕ) :
    tell T hd q cb pending us = timeline T hd q cb us := by
  cases us with
  | nil => rfl
  | cons u us => rw [tell, shows, next, tell_waiting]; rfl

end Status

/-- The relation of the times of two updates. -/
def gap (T t u : ℕ) : Prop := t ≤ u ∧ u + T ≤ t + 65536

private theorem expired_of {T last t now : ℕ} (h1 : last ≤ t) (h2 : t = last ∨ t < last + T) (hg : gap T t now) :
    (Modm.Timer.isExpired 65536 now ⟨last % 65536, T, Modm.Timer.ARMED⟩).2 = true ↔ last + T ≤ now := by
  rw [expired_iff]
  obtain ⟨g1, g2⟩ := hg
  rcases Nat.eq_zero_or_pos T with rfl | hT
  · simp; omega
  · omega

private theorem ok_next {T t now : ℕ} {st : Status} (h : st.ok T t) (hg : gap T t now) : (st.next T now).ok T now := by
  cases st with
  | unborn => trivial
  | pending => exact ⟨le_rfl, le_rfl, Or.inl rfl⟩
  | over => trivial
  | waiting last n =>
    obtain ⟨h1, h2, h3⟩ := h
    unfold Status.next
    dsimp only
    by_cases hh : last + T ≤ now
    · rw [if_pos hh]
      cases n with
      | zero => trivial
      | succ n => exact ⟨by omega, le_rfl, Or.inl rfl⟩
    · rw [if_neg hh]
      exact ⟨h1, le_trans h2 hg.1, Or.inr (by omega)⟩

/-! ## The loop -/

private theorem visitAll_done {hd : Header} {cb : Option ℕ} {c0 : Command} {now t : ℕ} {s s' : State σ}
    (hk : hd.kind = .request) (h0 : (message c0).1 = hd) (h : visitAll a cfg now fuel s = some s')
    (hal : Alone hd cb c0 s'.log) (hreach : Reach a cfg (fun _ _ => True) t (bag s) s.log) (hone : orderedOf hd s.log = 1)
    (hm : mine hd s.after = []) :
    mine hd s'.before = mine hd s.before ∧ orderedOf hd s'.log = 1 ∧ story hd cb s'.log = story hd cb s.log := by
  induction fuel generalizing s t with
  | zero => exact absurd h (by simp [visitAll])
  | succ fuel ih =>
    rw [visitAll] at h
    cases hl : s.after with
    | nil => rw [hl] at h; cases h; exact ⟨rfl, hone, rfl⟩
    | cons e l =>
      rw [hl] at h
      obtain ⟨m, hlog⟩ := visitAll_log h
      have hal1 : Alone hd cb c0 (visit a cfg now e s).log := by rw [hlog] at hal; exact hal.mono
      obtain ⟨m', hlog'⟩ := Move_log (visit_move a cfg now s e l hl)
      have hal0 : Alone hd cb c0 s.log := by rw [hlog'] at hal1; exact hal1.mono
      have hne : e.header ≠ hd := by
        intro he
        rw [hl, mine_cons_eq _ he] at hm
        simp at hm
      have hcl : ∀ e ∈ s.before ++ s.after, clean hd cb e := fun e he => reach_clean h0 hal0 hreach e he
      obtain ⟨n, k1, k2, k3, k4⟩ := visit_other hk hl hne hcl hal1
      have hn : n = 0 := by have := hal1.once; omega
      subst hn
      rw [hm, List.replicate_zero, List.append_nil] at k2
      rw [hone, Nat.add_zero] at k3
      obtain ⟨j1, j2, j3⟩ := ih h (hreach.move trivial (visit_move a cfg now s e l hl)) k3 k2
      exact ⟨j1.trans k1, j2, j3.trans k4⟩

private theorem visitAll_story {hd : Header} {c0 : Command} {q : Payload} {cb : Option ℕ} {now t t0 : ℕ} {s s' : State σ}
    {st : Status} (hk : hd.kind = .request) (h0 : (message c0).1 = hd) (hnew : newEntry c0 = entry hd q cb)
    (hr : hd.destination ≠ 0) (hav : a.available hd.destination = false) (h : visitAll a cfg now fuel s = some s')
    (hal : Alone hd cb c0 s'.log)
    (hreach : Reach a cfg (fun _ _ => True) t (bag s) s.log) (hok : st.ok cfg.acknowledgeTimeout t0)
    (hg : st = .unborn ∨ st = .pending ∨ gap cfg.acknowledgeTimeout t0 now)
    (hone : orderedOf hd s.log = st.count) (hb : mine hd s.before = [])
    (hm : mine hd s.after = st.entries cfg.acknowledgeTimeout hd q cb) :
    ∃ st' : Status, (st' = st ∨ st = .unborn ∧ st' = .pending) ∧ orderedOf hd s'.log = st'.count ∧
      mine hd s'.before = (st'.next cfg.acknowledgeTimeout now).entries cfg.acknowledgeTimeout hd q cb ∧
      story hd cb s'.log = story hd cb s.log ++ st'.shows cfg.acknowledgeTimeout hd q cb now := by
  induction fuel generalizing s t st with
  | zero => exact absurd h (by simp [visitAll])
  | succ fuel ih =>
    rw [visitAll] at h
    cases hl : s.after with
    | nil =>
      rw [hl] at h hm; cases h
      refine ⟨st, Or.inl rfl, hone, ?_, ?_⟩
      · cases st with
        | unborn => exact hb
        | over => exact hb
        | pending => simp [Status.entries, mine_nil] at hm
        | waiting => simp [Status.entries, mine_nil] at hm
      · cases st with
        | unborn => simp [Status.shows]
        | over => simp [Status.shows]
        | pending => simp [Status.entries, mine_nil] at hm
        | waiting => simp [Status.entries, mine_nil] at hm
    | cons e l =>
      rw [hl] at h
      obtain ⟨m, hlog⟩ := visitAll_log h
      have hal1 : Alone hd cb c0 (visit a cfg now e s).log := by rw [hlog] at hal; exact hal.mono
      obtain ⟨m', hlog'⟩ := Move_log (visit_move a cfg now s e l hl)
      have hal0 : Alone hd cb c0 s.log := by rw [hlog'] at hal1; exact hal1.mono
      have hcl : ∀ e ∈ s.before ++ s.after, clean hd cb e := fun e he => reach_clean h0 hal0 hreach e he
      have hreach' := hreach.move trivial (visit_move a cfg now s e l hl)
      by_cases he : e.header = hd
      · rw [hl, mine_cons_eq _ he] at hm
        obtain ⟨cs, o1, o2, kept, l', x', hsh, hv⟩ := visit_shape a cfg now s e l hl
        cases st with
        | unborn => simp [Status.entries] at hm
        | over => simp [Status.entries] at hm
        | pending =>
          simp only [Status.entries, List.cons.injEq] at hm
          obtain ⟨hee, hm⟩ := hm
          have hph : e.phase = .transmissionPending := by rw [hee]; rfl
          refine ⟨.pending, Or.inl rfl, ?_⟩
          cases hsh with
          | transmit hp hd' hv' =>
            have hd1 : mine hd (visit a cfg now e s).after = [] := by rw [hv]; simpa [messages] using hm
            have hd2 : orderedOf hd (visit a cfg now e s).log = 1 := by
              rw [hv]; dsimp only; rw [orderedOf_append, hone]; rfl
            obtain ⟨j1, j2, j3⟩ := visitAll_done hk h0 h hal hreach' hd2 hd1
            refine ⟨j2, j1.trans ?_, j3.trans ?_⟩
            · rw [hv]
              dsimp only
              rw [mine_append, mine_append, hb, mine_responses hk, mine_cons_eq _ (by exact he), mine_nil, hee]
              rfl
            · rw [hv]
              dsimp only
              rw [story_append, hee]
              congr 1
              exact story_cons_sent_eq _
          | event hp hd' => rw [he] at hd'; exact absurd hd' hr
          | innerCall k hp hd' hv' => rw [he, hav] at hv'; simp at hv'
          | innerDefault hp hd' hv' => rw [he, hav] at hv'; simp at hv'
          | innerAnswer i k q hp hd' hv' => rw [he, hav] at hv'; simp at hv'
          | innerDrop i q hp hd' hv' => rw [he, hav] at hv'; simp at hv'
          | innerNone hp hd' hv' => rw [he, hav] at hv'; simp at hv'
          | giveUp k hp => rw [hph] at hp; simp at hp
          | drop hp => rw [hph] at hp; simp at hp
          | retransmit hp => rw [hph] at hp; simp at hp
          | wait hp => rw [hph] at hp; simp at hp
          | idle hp => rw [hph] at hp; simp at hp
        | waiting last n =>
          simp only [Status.entries, List.cons.injEq] at hm
          obtain ⟨hee, hm⟩ := hm
          have hph : e.phase = .waitForAck := by rw [hee]
          have htime : e.time = ⟨last % 65536, cfg.acknowledgeTimeout, Modm.Timer.ARMED⟩ := by rw [hee]
          have htr : e.tries = 2 - n := by rw [hee]
          have hcb : e.callback = cb := by rw [hee]
          have hpay : e.payload = q := by rw [hee]
          obtain ⟨hn2, ho1, ho2⟩ := hok
          have hgap : gap cfg.acknowledgeTimeout t0 now := by
            rcases hg with hg | hg | hg
            · exact absurd hg (by simp)
            · exact absurd hg (by simp)
            · exact hg
          have hexp := expired_of ho1 ho2 hgap
          rw [← htime] at hexp
          refine ⟨.waiting last n, Or.inl rfl, ?_⟩
          have hone1 : orderedOf hd s.log = 1 := hone
          have hcs : mine hd (messages cs) = List.replicate (orderedOf hd (issues cs)) (newEntry c0) := by
            rw [hv] at hal1
            exact mine_messages hk cs (alone_issues hal1)
          have hcs0 : orderedOf hd (issues cs) = 0 := by
            rw [hv] at hal1
            have := hal1.once
            dsimp only at this
            rw [orderedOf_append, orderedOf_append, orderedOf_append] at this
            omega
          rw [hcs0, List.replicate_zero] at hcs
          have ho : orderedOf hd (visit a cfg now e s).log = 1 := by
            have h1 := hal1.once
            rw [hlog', orderedOf_append] at h1 ⊢
            omega
          cases hsh with
          | event hp => rw [hph] at hp; simp at hp
          | innerCall k hp => rw [hph] at hp; simp at hp
          | innerDefault hp => rw [hph] at hp; simp at hp
          | innerAnswer i k q hp => rw [hph] at hp; simp at hp
          | innerDrop i q hp => rw [hph] at hp; simp at hp
          | innerNone hp => rw [hph] at hp; simp at hp
          | transmit hp => rw [hph] at hp; simp at hp
          | idle hp => rw [hph] at hp; simp at hp
          | giveUp k hp ht hn hc =>
            have hn0 : n = 0 := by omega
            subst hn0
            have hlt := hexp.mp ht
            have hd1 : mine hd (visit a cfg now e s).after = [] := by rw [hv]; dsimp only; rw [mine_append, hm, hcs]; rfl
            obtain ⟨j1, j2, j3⟩ := visitAll_done hk h0 h hal hreach' ho hd1
            refine ⟨j2, j1.trans ?_, j3.trans ?_⟩
            · rw [hv]
              dsimp only
              rw [mine_append, mine_append, hb, mine_responses hk, show Status.next cfg.acknowledgeTimeout now (.waiting last 0) = .over from if_pos hlt]
              rfl
            · rw [hv]
              dsimp only
              rw [story_append, Status.shows, if_pos hlt, story_append, story_append, story_issues]
              rw [hcb] at hc
              rw [hc, he, hpay, story_cons_called_eq]
              rfl
          | drop hp ht hn hc =>
            have hn0 : n = 0 := by omega
            subst hn0
            have hlt := hexp.mp ht
            have hd1 : mine hd (visit a cfg now e s).after = [] := by rw [hv]; dsimp only; rw [mine_append, hm, hcs]; rfl
            obtain ⟨j1, j2, j3⟩ := visitAll_done hk h0 h hal hreach' ho hd1
            refine ⟨j2, j1.trans ?_, j3.trans ?_⟩
            · rw [hv]
              dsimp only
              rw [mine_append, mine_append, hb, mine_responses hk, show Status.next cfg.acknowledgeTimeout now (.waiting last 0) = .over from if_pos hlt]
              rfl
            · rw [hv]
              dsimp only
              rw [story_append, Status.shows, if_pos hlt]
              rw [hcb] at hc
              rw [hc]
              rfl
          | retransmit hp ht hn =>
            obtain ⟨n, rfl⟩ : ∃ n', n = n' + 1 := ⟨n - 1, by omega⟩
            have hlt := hexp.mp ht
            have hd1 : mine hd (visit a cfg now e s).after = [] := by rw [hv]; dsimp only; rw [mine_append, hm, hcs]; rfl
            obtain ⟨j1, j2, j3⟩ := visitAll_done hk h0 h hal hreach' ho hd1
            refine ⟨j2, j1.trans ?_, j3.trans ?_⟩
            · rw [hv]
              dsimp only
              rw [mine_append, mine_append, hb, mine_responses hk, mine_cons_eq _ (by exact he), mine_nil, Status.next, if_pos hlt,
                Status.entries, hcb, he, hpay, htr, show 2 - (n + 1) + 1 = 2 - n by omega]
              rfl
            · rw [hv]
              dsimp only
              rw [story_append, Status.shows, if_pos hlt, he, hpay]
              congr 1
              exact story_cons_sent_eq _
          | wait hp ht =>
            have hlt : ¬ last + cfg.acknowledgeTimeout ≤ now := fun hh => by rw [hexp.mpr hh] at ht; simp at ht
            have hd1 : mine hd (visit a cfg now e s).after = [] := by rw [hv]; dsimp only; rw [mine_append, hm, hcs]; rfl
            obtain ⟨j1, j2, j3⟩ := visitAll_done hk h0 h hal hreach' ho hd1
            have ht' := ht
            rw [htime] at ht'
            refine ⟨j2, j1.trans ?_, j3.trans ?_⟩
            · rw [hv]
              dsimp only
              rw [mine_append, mine_append, hb, mine_responses hk, mine_cons_eq _ (by exact he), mine_nil,
                show Status.next cfg.acknowledgeTimeout now (.waiting last n) = .waiting last n from if_neg hlt,
                Status.entries, hcb, he, hpay, htr, htime, not_expired ht', hph]
              rfl
            · rw [hv]
              dsimp only
              rw [story_append, show Status.shows cfg.acknowledgeTimeout hd q cb now (.waiting last n) = [] from if_neg hlt]
              rfl
      · obtain ⟨n, k1, k2, k3, k4⟩ := visit_other hk hl he hcl hal1
        rw [hb] at k1
        have hn1 := hal1.once
        by_cases hu : st = .unborn ∧ n = 1
        · obtain ⟨rfl, rfl⟩ := hu
          have hone0 : orderedOf hd s.log = 0 := hone
          rw [hm, hnew] at k2
          rw [hone0] at k3
          obtain ⟨st', j1, j2, j3, j4⟩ := ih (st := .pending) h hreach' trivial (Or.inr (Or.inl rfl)) k3 k1 k2
          refine ⟨st', Or.inr ⟨rfl, ?_⟩, j2, j3, ?_⟩
          · rcases j1 with j1 | ⟨j1, -⟩
            · exact j1
            · exact absurd j1 (by simp)
          · rw [j4, k4]
        · have hn : n = 0 := by
            cases st with
            | unborn =>
              have hone0 : orderedOf hd s.log = 0 := hone
              have : n ≠ 1 := fun h => hu ⟨rfl, h⟩
              omega
            | _ =>
              have hone0 : orderedOf hd s.log = 1 := hone
              omega
          subst hn
          rw [List.replicate_zero, List.append_nil, hm] at k2
          rw [Nat.add_zero, hone] at k3
          obtain ⟨st', j1, j2, j3, j4⟩ := ih (st := st) h hreach' hok hg k3 k1 k2
          exact ⟨st', j1, j2, j3, by rw [j4, k4]⟩

/-! ## Updates and runs -/

private theorem receiveAll_story {hd : Header} {c0 : Command} {q : Payload} {cb : Option ℕ} {now t : ℕ}
    (packets : List (Header × Payload)) {s : State σ} {st : Status} (hk : hd.kind = .request) (hack : hd.ack = false)
    (h0 : (message c0).1 = hd) (hnew : newEntry c0 = entry hd q cb)
    (hal : Alone hd cb c0 (packets.foldl (fun s hp => updateOnceRx a now hp.1 hp.2 s) s).log)
    (hreach : Reach a cfg (fun _ _ => True) t (bag s) s.log)
    (hone : orderedOf hd s.log = st.count)
    (hm : mine hd (s.before ++ s.after) = st.entries cfg.acknowledgeTimeout hd q cb) :
    ∃ st' : Status, (st' = st ∨ st = .unborn ∧ st' = .pending) ∧
      orderedOf hd (packets.foldl (fun s hp => updateOnceRx a now hp.1 hp.2 s) s).log = st'.count ∧
      mine hd ((packets.foldl (fun s hp => updateOnceRx a now hp.1 hp.2 s) s).before ++
        (packets.foldl (fun s hp => updateOnceRx a now hp.1 hp.2 s) s).after) = st'.entries cfg.acknowledgeTimeout hd q cb ∧
      story hd cb (packets.foldl (fun s hp => updateOnceRx a now hp.1 hp.2 s) s).log = story hd cb s.log := by
  induction packets generalizing s st t with
  | nil => exact ⟨st, Or.inl rfl, hone, hm, rfl⟩
  | cons hp ps ih =>
    rw [List.foldl_cons] at hal ⊢
    obtain ⟨m, hlog⟩ := receive_log (a := a) (now := now) ps (updateOnceRx a now hp.1 hp.2 s)
    have hal1 : Alone hd cb c0 (updateOnceRx a now hp.1 hp.2 s).log := by rw [hlog] at hal; exact hal.mono
    have hmove := updateOnceRx_move a cfg now hp.1 hp.2 s
    obtain ⟨m', hlog'⟩ := Move_log hmove
    have hal0 : Alone hd cb c0 s.log := by rw [hlog'] at hal1; exact hal1.mono
    have hcl : ∀ e ∈ s.before ++ s.after, clean hd cb e := fun e he => reach_clean h0 hal0 hreach e he
    have hreach' := hreach.move trivial hmove
    obtain ⟨n, k2, k3, k4⟩ := receive_other hk hack hcl hal1
    have hn1 := hal1.once
    by_cases hu : st = .unborn ∧ n = 1
    · obtain ⟨rfl, rfl⟩ := hu
      have hone0 : orderedOf hd s.log = 0 := hone
      rw [hm, hnew] at k2
      rw [hone0] at k3
      obtain ⟨st', j1, j2, j3, j4⟩ := ih (st := .pending) hal hreach' k3 k2
      refine ⟨st', Or.inr ⟨rfl, ?_⟩, j2, j3, j4.trans k4⟩
      rcases j1 with j1 | ⟨j1, -⟩
      · exact j1
      · exact absurd j1 (by simp)
    · have hn : n = 0 := by
        cases st with
        | unborn =>
          have hone0 : orderedOf hd s.log = 0 := hone
          have : n ≠ 1 := fun h => hu ⟨rfl, h⟩
          omega
        | _ =>
          have hone0 : orderedOf hd s.log = 1 := hone
          omega
      subst hn
      rw [List.replicate_zero, List.append_nil, hm] at k2
      rw [Nat.add_zero, hone] at k3
      obtain ⟨st', j1, j2, j3, j4⟩ := ih (st := st) hal hreach' k3 k2
      exact ⟨st', j1, j2, j3, j4.trans k4⟩

private theorem visitAll_after {now : ℕ} {s s' : State σ} (h : visitAll a cfg now fuel s = some s') : s'.after = [] := by
  induction fuel generalizing s with
  | zero => exact absurd h (by simp [visitAll])
  | succ fuel ih =>
    rw [visitAll] at h
    cases hl : s.after with
    | nil => rw [hl] at h; cases h; exact hl
    | cons e l => rw [hl] at h; exact ih h

private theorem update_story {hd : Header} {c0 : Command} {q : Payload} {cb : Option ℕ} {now t t0 : ℕ}
    {packets : List (Header × Payload)} {s s' : State σ} {st : Status} (hk : hd.kind = .request) (hack : hd.ack = false)
    (h0 : (message c0).1 = hd) (hnew : newEntry c0 = entry hd q cb)
    (hr : hd.destination ≠ 0) (hav : a.available hd.destination = false) (h : update a cfg now fuel packets s = some s')
    (hal : Alone hd cb c0 s'.log)
    (hreach : Reach a cfg (fun _ _ => True) t (bag s) s.log) (hok : st.ok cfg.acknowledgeTimeout t0)
    (hg : st = .unborn ∨ st = .pending ∨ gap cfg.acknowledgeTimeout t0 now)
    (hone : orderedOf hd s.log = st.count)
    (hm : mine hd (s.before ++ s.after) = st.entries cfg.acknowledgeTimeout hd q cb) :
    ∃ st' : Status, (st' = st ∨ st = .unborn ∧ st' = .pending) ∧ orderedOf hd s'.log = st'.count ∧
      mine hd (s'.before ++ s'.after) = (st'.next cfg.acknowledgeTimeout now).entries cfg.acknowledgeTimeout hd q cb ∧
      story hd cb s'.log = story hd cb s.log ++ st'.shows cfg.acknowledgeTimeout hd q cb now := by
  obtain ⟨m, hlog⟩ := visitAll_log h
  have hal1 := hal
  rw [hlog] at hal1
  replace hal1 := hal1.mono
  obtain ⟨st1, j1, j2, j3, j4⟩ := receiveAll_story packets hk hack h0 hnew hal1 hreach hone hm
  obtain ⟨t', -, hreach1⟩ := receive_reach (R := fun _ _ => True) (fun _ => trivial) packets hreach (now := now) trivial
  have hok1 : st1.ok cfg.acknowledgeTimeout t0 := by
    rcases j1 with rfl | ⟨-, rfl⟩
    · exact hok
    · trivial
  have hg1 : st1 = .unborn ∨ st1 = .pending ∨ gap cfg.acknowledgeTimeout t0 now := by
    rcases j1 with rfl | ⟨-, rfl⟩
    · exact hg
    · exact Or.inr (Or.inl rfl)
  obtain ⟨st2, k1, k2, k3, k4⟩ := visitAll_story (s := ⟨[], _, _, _⟩) hk h0 hnew hr hav h hal hreach1 hok1 hg1 j2 (mine_nil hd) j3
  refine ⟨st2, ?_, k2, ?_, ?_⟩
  · rcases j1 with rfl | ⟨j1, rfl⟩
    · exact k1
    · rcases k1 with rfl | ⟨k1, -⟩
      · exact Or.inr ⟨j1, rfl⟩
      · exact absurd k1 (by simp)
  · rw [visitAll_after h, List.append_nil]; exact k3
  · rw [k4]
    dsimp only
    rw [j4]

private theorem step_log {y : Step} {s s' : State σ} (h : step a cfg fuel s y = some s') : ∃ m, s'.log = s.log ++ m := by
  cases y with
  | command c =>
    rw [step, Option.some.injEq] at h
    subst h
    exact ⟨_, execute_log s c⟩
  | update now packets =>
    obtain ⟨m, hm⟩ := visitAll_log h
    obtain ⟨m', hm'⟩ := receive_log (a := a) (now := now) packets s
    exact ⟨m' ++ m, by rw [hm]; dsimp only; rw [hm', List.append_assoc]⟩

private theorem run_log {s s' : State σ} (h : run a cfg fuel s steps = some s') : ∃ m, s'.log = s.log ++ m := by
  induction steps generalizing s with
  | nil => cases h; exact ⟨[], by simp⟩
  | cons y ys ih =>
    rw [run] at h
    cases hy : step a cfg fuel s y with
    | none => rw [hy] at h; exact absurd h (by simp)
    | some u =>
      rw [hy] at h
      obtain ⟨m, hm⟩ := step_log hy
      obtain ⟨m', hm'⟩ := ih h
      exact ⟨m ++ m', by rw [hm', hm, List.append_assoc]⟩

/-- One step, after which the call has been ordered. -/
private theorem step_story {hd : Header} {c0 : Command} {q : Payload} {cb : Option ℕ} {t t0 : ℕ} {y : Step}
    {s s' : State σ} {st : Status} (hk : hd.kind = .request) (hack : hd.ack = false)
    (h0 : (message c0).1 = hd) (hnew : newEntry c0 = entry hd q cb)
    (hr : hd.destination ≠ 0) (hav : a.available hd.destination = false) (h : step a cfg fuel s y = some s')
    (hal : Alone hd cb c0 s'.log)
    (hreach : Reach a cfg (fun _ _ => True) t (bag s) s.log) (hok : st.ok cfg.acknowledgeTimeout t0)
    (hg : st = .unborn ∨ st = .pending ∨ (t0 :: Step.times [y]).IsChain (gap cfg.acknowledgeTimeout))
    (hone : orderedOf hd s.log = st.count) (hborn : orderedOf hd s'.log = 1)
    (hm : mine hd (s.before ++ s.after) = st.entries cfg.acknowledgeTimeout hd q cb) :
    ∃ st' : Status, (st' = st ∧ st ≠ .unborn ∨ st = .unborn ∧ st' = .pending) ∧
      mine hd (s'.before ++ s'.after) =
        ((Step.times [y]).foldl (fun st u => st.next cfg.acknowledgeTimeout u) st').entries cfg.acknowledgeTimeout hd q cb ∧
      story hd cb s'.log = story hd cb s.log ++ st'.tell cfg.acknowledgeTimeout hd q cb (Step.times [y]) := by
  cases y with
  | command c =>
    rw [step, Option.some.injEq] at h
    have hl := executeAll_lists s [c]
    rw [show executeAll s [c] = execute s c from rfl] at hl
    have hlog : s'.log = s.log ++ ([] ++ issues [c] ++ []) := by rw [← h, hl]; simp
    rw [hlog] at hal hborn
    have hmes := mine_messages hk [c] (alone_issues hal)
    have hlists : mine hd (s'.before ++ s'.after) = mine hd (s.before ++ s.after) ++ mine hd (messages [c]) := by
      rw [← h, hl]
      dsimp only
      rw [List.append_assoc, mine_append, mine_responses hk, List.nil_append, ← List.append_assoc, mine_append]
    have hst : story hd cb s'.log = story hd cb s.log := by
      rw [hlog, story_append, List.nil_append, List.append_nil, story_issues, List.append_nil]
    rw [List.nil_append, List.append_nil, orderedOf_append, hone] at hborn
    simp only [Step.times, List.foldl_nil, Status.tell, List.append_nil]
    rw [hlists, hst]
    cases st with
    | unborn =>
      have h1 : orderedOf hd (issues [c]) = 1 := by simpa [Status.count] using hborn
      refine ⟨.pending, Or.inr ⟨rfl, rfl⟩, ?_, rfl⟩
      rw [hm, hmes, h1, hnew]
      rfl
    | pending =>
      have h1 : orderedOf hd (issues [c]) = 0 := by simpa [Status.count] using hborn
      refine ⟨.pending, Or.inl ⟨rfl, by simp⟩, ?_, rfl⟩
      rw [hm, hmes, h1]; simp
    | waiting last n =>
      have h1 : orderedOf hd (issues [c]) = 0 := by simpa [Status.count] using hborn
      refine ⟨.waiting last n, Or.inl ⟨rfl, by simp⟩, ?_, rfl⟩
      rw [hm, hmes, h1]; simp
    | over =>
      have h1 : orderedOf hd (issues [c]) = 0 := by simpa [Status.count] using hborn
      refine ⟨.over, Or.inl ⟨rfl, by simp⟩, ?_, rfl⟩
      rw [hm, hmes, h1]; simp
  | update now packets =>
    have hg' : st = .unborn ∨ st = .pending ∨ gap cfg.acknowledgeTimeout t0 now := by
      rcases hg with hg | hg | hg
      · exact Or.inl hg
      · exact Or.inr (Or.inl hg)
      · rw [Step.times, List.isChain_cons_cons] at hg; exact Or.inr (Or.inr hg.1)
    obtain ⟨st', k1, k2, k3, k4⟩ := update_story hk hack h0 hnew hr hav h hal hreach hok hg' hone hm
    refine ⟨st', ?_, k3, ?_⟩
    · rcases k1 with rfl | k1
      · refine Or.inl ⟨rfl, ?_⟩
        rintro rfl
        rw [hborn] at k2
        simp [Status.count] at k2
      · exact Or.inr k1
    · rw [k4]; simp [Step.times, Status.tell]

private theorem run_story {hd : Header} {c0 : Command} {q : Payload} {cb : Option ℕ} {t t0 : ℕ}
    {s s' : State σ} {st : Status} (hk : hd.kind = .request) (hack : hd.ack = false)
    (h0 : (message c0).1 = hd) (hnew : newEntry c0 = entry hd q cb)
    (hr : hd.destination ≠ 0) (hav : a.available hd.destination = false) (h : run a cfg fuel s steps = some s')
    (hal : Alone hd cb c0 s'.log)
    (hreach : Reach a cfg (fun _ _ => True) t (bag s) s.log) (hok : st.ok cfg.acknowledgeTimeout t0)
    (hclock : (Step.times steps).IsChain (gap cfg.acknowledgeTimeout))
    (hg : st = .pending ∨ (t0 :: Step.times steps).IsChain (gap cfg.acknowledgeTimeout))
    (hborn : st ≠ .unborn) (hone : orderedOf hd s.log = 1)
    (hm : mine hd (s.before ++ s.after) = st.entries cfg.acknowledgeTimeout hd q cb) :
    story hd cb s'.log = story hd cb s.log ++ st.tell cfg.acknowledgeTimeout hd q cb (Step.times steps) := by
  induction steps generalizing s st t t0 with
  | nil => cases h; simp [Step.times, Status.tell]
  | cons y ys ih =>
    rw [run] at h
    cases hy : step a cfg fuel s y with
    | none => rw [hy] at h; exact absurd h (by simp)
    | some u =>
      rw [hy] at h
      have hrun : run a cfg fuel u ys = some s' := h
      obtain ⟨m, hlog⟩ := run_log hrun
      have hal1 : Alone hd cb c0 u.log := by rw [hlog] at hal; exact hal.mono
      obtain ⟨m', hlog'⟩ := step_log hy
      have hone' : orderedOf hd u.log = 1 := by
        have := hal1.once
        rw [hlog', orderedOf_append] at this ⊢
        omega
      have hcount : st.count = 1 := by cases st <;> first | rfl | exact absurd rfl hborn
      obtain ⟨t', hreach'⟩ := run_reach hreach (steps := [y]) (s' := u) (fuel := fuel) (by rw [run, hy]; rfl)
      cases y with
      | command c =>
        obtain ⟨st', k1, k2, k3⟩ := step_story (t0 := t0) hk hack h0 hnew hr hav hy hal1 hreach hok
          (Or.inr (Or.inr (by simp [Step.times]))) (hone.trans hcount.symm) hone' hm
        obtain ⟨rfl, -⟩ : st' = st ∧ st ≠ .unborn := by
          rcases k1 with k1 | ⟨k1, -⟩
          · exact k1
          · exact absurd k1 hborn
        simp only [Step.times, List.foldl_nil, Status.tell, List.append_nil] at k2 k3
        rw [ih hrun hreach' hok hclock hg hborn hone' k2, k3]
        rfl
      | update now packets =>
        rw [Step.times] at hclock hg
        have hg1 : st = .unborn ∨ st = .pending ∨ (t0 :: Step.times [Step.update now packets]).IsChain (gap cfg.acknowledgeTimeout) := by
          rcases hg with hg | hg
          · exact Or.inr (Or.inl hg)
          · rw [List.isChain_cons_cons] at hg
            refine Or.inr (Or.inr ?_)
            rw [Step.times, List.isChain_cons_cons]
            exact ⟨hg.1, by simp [Step.times]⟩
        obtain ⟨st', k1, k2, k3⟩ := step_story (t0 := t0) hk hack h0 hnew hr hav hy hal1 hreach hok
          hg1 (hone.trans hcount.symm) hone' hm
        obtain ⟨rfl, -⟩ : st' = st ∧ st ≠ .unborn := by
          rcases k1 with k1 | ⟨k1, -⟩
          · exact k1
          · exact absurd k1 hborn
        have hok' : (st'.next cfg.acknowledgeTimeout now).ok cfg.acknowledgeTimeout now := by
          rcases hg with rfl | hg
          · exact ⟨le_rfl, le_rfl, Or.inl rfl⟩
          · rw [List.isChain_cons_cons] at hg
            exact ok_next hok hg.1
        have hborn' : st'.next cfg.acknowledgeTimeout now ≠ .unborn := by
          cases st' with
          | unborn => exact absurd rfl hborn
          | pending => simp [Status.next]
          | over => simp [Status.next]
          | waiting last n =>
            unfold Status.next
            dsimp only
            split
            · cases n <;> simp
            · simp
        simp only [Step.times, List.foldl_cons, List.foldl_nil, Status.tell, List.append_nil] at k2 k3
        rw [ih hrun hreach' hok' (List.isChain_of_isChain_cons hclock) (Or.inr hclock) hborn' hone' k2, k3, Step.times, Status.tell, List.append_assoc]

/-- **C125.**  An action call to a component on another board, which nobody answers or acknowledges: it is sent in the first
`update` after it (or in that in which it is made), again in the first `update` at which the timeout has passed, once more
likewise, and then the callback is told of the timeout, once; whatever else happens meanwhile.  The clock is read modulo
`2 ^ 16`, so that the updates must not be too far apart. -/
theorem C125_timeline {own receiver action : Byte} {q : Payload} {cb : Option ℕ} {pre rest : List Step} {y : Step} {s0 s1 s' : State σ}
    (hr : receiver ≠ 0) (hav : a.available receiver = false)
    (h0 : run a cfg fuel (init x) pre = some s0) (h1 : step a cfg fuel s0 y = some s1) (h2 : run a cfg fuel s1 rest = some s')
    (hnot : orderedOf ⟨.request, false, receiver, own, action⟩ s0.log = 0)
    (hcall : .issued (.callAction own receiver action q cb) ∈ s1.log)
    (hclock : (Step.times (y :: rest)).IsChain (gap cfg.acknowledgeTimeout))
    (hal : Alone ⟨.request, false, receiver, own, action⟩ cb (.callAction own receiver action q cb) s'.log) :
    story ⟨.request, false, receiver, own, action⟩ cb s'.log =
      timeline cfg.acknowledgeTimeout ⟨.request, false, receiver, own, action⟩ q cb (Step.times (y :: rest)) := by
  obtain ⟨t0, hreach0⟩ := run_init_reach h0
  obtain ⟨m, hlog⟩ := run_log h2
  obtain ⟨m', hlog'⟩ := step_log h1
  have hal1 : Alone ⟨.request, false, receiver, own, action⟩ cb (.callAction own receiver action q cb) s1.log := by
    rw [hlog] at hal; exact hal.mono
  have hal0 : Alone ⟨.request, false, receiver, own, action⟩ cb (.callAction own receiver action q cb) s0.log := by
    rw [hlog'] at hal1; exact hal1.mono
  have hnone : ∀ c, .issued c ∈ s0.log → (message c).1 ≠ ⟨.request, false, receiver, own, action⟩ := by
    intro c hc hm
    have := (List.countP_eq_zero.mp hnot) _ hc
    simp [hm] at this
  have hm0 : mine ⟨.request, false, receiver, own, action⟩ (s0.before ++ s0.after) = [] := by
    rw [mine, List.filter_eq_nil_iff]
    intro e he
    obtain ⟨⟨c, k1, k2, -⟩, -⟩ := hreach0.origin e he
    have := hnone c k1
    rw [k2] at this
    simpa using this
  have hs0 : story ⟨.request, false, receiver, own, action⟩ cb s0.log = [] := by
    rw [story, List.filter_eq_nil_iff]
    intro o ho
    obtain ⟨l1, l2, hl⟩ := List.append_of_mem ho
    cases o with
    | sent t hd p =>
      simp only [decide_eq_true_eq]
      rintro rfl
      obtain ⟨c, k1, k2⟩ := C129_sent h0 hl rfl
      exact hnone c (by rw [hl]; exact List.mem_append_left _ k1) (by rw [k2])
    | called k hd p =>
      simp only [decide_eq_true_eq]
      rintro hk
      obtain ⟨o, r, ac, q', k1, -⟩ := C123_genuine h0 hl
      have hin : .issued (.callAction o r ac q' (some k)) ∈ s0.log := by rw [hl]; exact List.mem_append_left _ k1
      have := hal0.only _ hin (Or.inr ⟨by rw [← hk]; simp, hk⟩)
      exact hnone _ hin (by rw [this]; rfl)
    | _ => simp
  have hone : orderedOf ⟨.request, false, receiver, own, action⟩ s1.log = 1 := by
    have k1 := hal1.once
    have k2 : 0 < orderedOf ⟨.request, false, receiver, own, action⟩ s1.log :=
      List.countP_pos_iff.mpr ⟨_, hcall, by simp [message]⟩
    omega
  obtain ⟨st', k1, k2, k3⟩ := step_story (hd := ⟨.request, false, receiver, own, action⟩) (q := q) (cb := cb)
    (st := .unborn) (t0 := 0) (c0 := .callAction own receiver action q cb) rfl rfl rfl rfl hr hav
    h1 hal1 hreach0 trivial (Or.inl rfl) hnot hone hm0
  obtain ⟨-, rfl⟩ : Status.unborn = .unborn ∧ st' = .pending := by
    rcases k1 with ⟨-, k1⟩ | k1
    · exact absurd rfl k1
    · exact k1
  obtain ⟨t1, hreach1⟩ := run_reach hreach0 (steps := [y]) (s' := s1) (fuel := fuel) (by rw [run, h1]; rfl)
  rw [hs0, List.nil_append] at k3
  rw [← Status.tell_pending]
  cases y with
  | command c =>
    simp only [Step.times, List.foldl_nil, Status.tell] at k2 k3
    rw [run_story (hd := ⟨.request, false, receiver, own, action⟩) (q := q) (cb := cb) (st := .pending) (t0 := 0) rfl rfl rfl rfl hr hav h2 hal hreach1 trivial hclock (Or.inl rfl) (by simp) hone k2, k3]
    rfl
  | update now packets =>
    rw [Step.times] at hclock
    simp only [Step.times, List.foldl_cons, List.foldl_nil, Status.tell, List.append_nil] at k2 k3
    rw [run_story (hd := ⟨.request, false, receiver, own, action⟩) (q := q) (cb := cb) (t0 := now) rfl rfl rfl rfl hr hav h2 hal hreach1 (st := .waiting now 2) ⟨le_rfl, le_rfl, Or.inl rfl⟩
      (List.isChain_of_isChain_cons hclock) (Or.inr hclock) (by simp) hone k2, k3]
    rfl

end Props.Dispatcher
