import Verif.Lemmas.UartRx

set_option autoImplicit false

namespace Modm.Uart

open Modm.AtomicQueue (Q next Rep head_le full_iff empty_iff size_eq rep_init rep_push rep_pop rep_get next_eq wrap)
open Spec.Uart

variable {α : Type}

/-! ### Executions -/

theorem api_append (tr e : List (Ev α)) : api (tr ++ e) = e.foldl learn (api tr) := by
  simp [api, List.foldl_append]

theorem Reach.mono {cfg : Config} {ok ok' : State α → Act α → Prop} {s0 s : State α} {tr : List (Ev α)}
    (h : Reach cfg ok s0 s tr) (hk : ∀ s a, ok s a → ok' s a) : Reach cfg ok' s0 s tr := by
  induction h with
  | start => exact .start
  | step a _ ha hs ih => exact .step a ih (hk _ _ ha) hs

theorem tx_init (cfg : Config) (txMem rxMem : List α) (hN : cfg.txSize ≤ 65535) (hl : txMem.length = cfg.txSize + 1) :
    TxInv cfg (init txMem rxMem) [] [] 0 :=
  ⟨rep_init _ hN hl, by simp [flow, init, waiting, Isr.popping], by simp [flow, init, waiting, Isr.popping], trivial, trivial, fun h => absurd rfl h⟩

theorem rx_init (cfg : Config) (txMem rxMem : List α) (hN : cfg.rxSize ≤ 65535) (hl : rxMem.length = cfg.rxSize + 1) :
    RxInv cfg (init txMem rxMem) [] [] [] 0 :=
  ⟨rep_init _ hN hl, by simp [stock, init, Isr.byte, Main.popping], by simp [stock, init, Isr.byte, Main.popping], trivial, trivial⟩

theorem reach_tx {cfg : Config} {txMem rxMem : List α} (hN : cfg.txSize ≤ 65535) (hl : txMem.length = cfg.txSize + 1)
    {s : State α} {tr : List (Ev α)} (h : Reach cfg (TxOk cfg) (init txMem rxMem) s tr) :
    ∃ l, TxInv cfg s l (accepteds tr) (dropsTx tr) := by
  induction h with
  | start => exact ⟨[], tx_init cfg txMem rxMem hN hl⟩
  | step a _ ha hs ih =>
    obtain ⟨l, ih⟩ := ih
    rw [accepteds_append, dropsTx_append]
    exact step_tx ih a ha hs

theorem reach_rx {cfg : Config} {ok : State α → Act α → Prop} {txMem rxMem : List α} (hN : cfg.rxSize ≤ 65535)
    (hl : rxMem.length = cfg.rxSize + 1) {s : State α} {tr : List (Ev α)} (h : Reach cfg ok (init txMem rxMem) s tr) :
    ∃ l t, RxInv cfg s l t (arrivals tr) ((overflows tr).length + (eatens tr).length) ∧ (gots tr).Sublist t ∧
      t.length = (gots tr).length + dropsRx tr := by
  induction h with
  | start => exact ⟨[], [], rx_init cfg txMem rxMem hN hl, List.Sublist.refl _, rfl⟩
  | step a _ ha hs ih =>
    obtain ⟨l, t, ih, h1, h2⟩ := ih
    obtain ⟨l', u, ih', h3, h4⟩ := step_rx ih a hs
    refine ⟨l', t ++ u, ?_, ?_, ?_⟩
    · rw [arrivals_append, overflows_append, eatens_append]
      have e : ∀ (a b c d : Nat), a + b + (c + d) = a + c + b + d := by omega
      simp only [List.length_append]
      rw [e]; exact ih'
    · rw [gots_append]; exact h1.append h3
    · rw [gots_append, dropsRx_append]; simp; omega

theorem reach_res {cfg : Config} {ok : State α → Act α → Prop} {txMem rxMem : List α} {s : State α} {tr : List (Ev α)}
    (h : Reach cfg ok (init txMem rxMem) s tr) :
    Res cfg s.main (api tr) (accepteds tr) (gots tr) (dropsTx tr) (dropsRx tr) := by
  induction h with
  | start => exact ⟨rfl, rfl, rfl, rfl⟩
  | step a _ ha hs ih =>
    rw [api_append, accepteds_append, gots_append, dropsTx_append, dropsRx_append]
    exact step_res ih a hs

theorem run_append (cfg : Config) (as bs : List (Act α)) : ∀ {s s1 s2 : State α} {e1 e2 : List (Ev α)},
    run cfg s as = some (s1, e1) → run cfg s1 bs = some (s2, e2) → run cfg s (as ++ bs) = some (s2, e1 ++ e2) := by
  induction as with
  | nil =>
    intro s s1 s2 e1 e2 h1 h2
    simp only [run, Option.some.injEq, Prod.mk.injEq] at h1
    obtain ⟨rfl, rfl⟩ := h1; simpa using h2
  | cons a as ih =>
    intro s s1 s2 e1 e2 h1 h2
    simp only [run, List.cons_append, Option.bind_eq_bind, Option.pure_def, Option.bind_eq_some_iff, Option.some.injEq, Prod.mk.injEq,
      Prod.exists] at h1 ⊢
    obtain ⟨s', e, hs, s'', es, hr, rfl, rfl⟩ := h1
    exact ⟨s', e, hs, s2, es ++ e2, ih hr h2, rfl, by simp⟩

/-- A schedule is an execution if all of its choices are allowed. -/
theorem reach_run {cfg : Config} {ok : State α → Act α → Prop} {s0 : State α} (as : List (Act α)) (ha : ∀ s, ∀ a ∈ as, ok s a) :
    ∀ {s s' : State α} {tr e : List (Ev α)}, Reach cfg ok s0 s tr → run cfg s as = some (s', e) → Reach cfg ok s0 s' (tr ++ e) := by
  induction as with
  | nil =>
    intro s s' tr e h hr
    simp only [run, Option.some.injEq, Prod.mk.injEq] at hr
    obtain ⟨rfl, rfl⟩ := hr; simpa using h
  | cons a as ih =>
    intro s s' tr e h hr
    simp only [run, Option.bind_eq_bind, Option.pure_def, Option.bind_eq_some_iff, Option.some.injEq, Prod.mk.injEq, Prod.exists] at hr
    obtain ⟨s1, e1, hs, s2, es, hr, rfl, rfl⟩ := hr
    have := ih (fun s b hb => ha s b (List.mem_cons_of_mem _ hb)) (.step a h (ha s a List.mem_cons_self) hs) hr
    rwa [List.append_assoc] at this

/-! ### Everything is sent in the end -/

/-- What the hardware and the handler do by themselves. -/
def Auto : Act α → Prop
  | .interrupt => True
  | .isr => True
  | .load => True
  | .sent => True
  | _ => False

theorem auto_ok {cfg : Config} {s : State α} {a : Act α} (h : Auto a) : TxOk cfg s a := by
  cases a <;> first | trivial | cases h

structure Good (cfg : Config) (s : State α) (acc : List α) (d : Nat) : Prop where
  tx : ∃ l, TxInv cfg s l acc d
  rx : ∃ l t arr n, RxInv cfg s l t arr n

theorem auto_step {cfg : Config} {s : State α} {acc : List α} {d : Nat} (h : Good cfg s acc d) {a : Act α} (ha : Auto a) :
    ∃ s' e, step cfg s a = some (s', e) ∧ Good cfg s' acc d ∧ s'.main = s.main := by
  obtain ⟨l, ht⟩ := h.tx
  obtain ⟨l', t, arr, n, hr⟩ := h.rx
  obtain ⟨⟨s', e⟩, hs⟩ := Option.ne_none_iff_exists'.1 (step_defined ht hr a)
  obtain ⟨l1, ht'⟩ := step_tx ht a (auto_ok ha) hs
  obtain ⟨l2, u, hr', -, -⟩ := step_rx hr a hs
  have hmain : s'.main = s.main ∧ Hidden e := by
    cases a with
    | isr => exact isr_hidden hs
    | interrupt | load | sent =>
      simp only [step] at hs; repeat' split at hs
      all_goals
        simp only [Option.some.injEq, Prod.mk.injEq] at hs
        obtain ⟨rfl, rfl⟩ := hs
        exact ⟨rfl, hidden_nil⟩
    | _ => cases ha
  refine ⟨s', e, hs, ⟨⟨l1, ?_⟩, ⟨l2, _, _, _, hr'⟩⟩, hmain.1⟩
  rw [hmain.2.1, hmain.2.2.2.1] at ht'
  simpa using ht'

def Isr.rank : Isr α → Nat
  | .none => 0
  | .ackRead => 1
  | .ack => 2
  | .txPop => 3
  | .txWrite => 4
  | .txDisable => 4
  | .txEmpty => 5
  | .txCheck => 6
  | .rxPush _ => 7
  | .rxRead => 8
  | .rxCheck => 9

def Isr.early : Isr α → Bool
  | .rxCheck => true
  | .rxRead => true
  | .rxPush _ => true
  | .txCheck => true
  | .txEmpty => true
  | .txWrite => true
  | _ => false

/-- The number of bytes in the transmit queue when the handler returns. -/
def rest (cfg : Config) (s : State α) : Nat :=
  AtomicQueue.getSize cfg.txSize s.tx - (if s.isr.popping then 1 else 0) - (if s.isr.early && s.hw.tdr.isNone then 1 else 0)

theorem isr_rest {cfg : Config} {s s' : State α} {l acc : List α} {d : Nat} {e : List (Ev α)} (h : TxInv cfg s l acc d)
    (hne : s.isr ≠ .none) (hs : isrStep cfg s = some (s', e)) : s'.isr.rank < s.isr.rank ∧ rest cfg s' = rest cfg s := by
  have hi := h.isr
  unfold IsrTx at hi
  unfold isrStep at hs
  cases hisr : s.isr <;> rw [hisr] at hs hi <;> simp only at hs hi
  case none => exact absurd hisr hne
  case txWrite =>
    obtain ⟨htdr, hl⟩ := hi
    cases l with
    | nil => exact absurd rfl hl
    | cons a l =>
      rw [rep_get h.rep] at hs
      simp only [Option.some.injEq, Prod.mk.injEq] at hs
      obtain ⟨rfl, rfl⟩ := hs
      simp [rest, Isr.rank, Isr.early, Isr.popping, hisr, htdr]
  case txPop =>
    cases l with
    | nil => exact absurd rfl hi
    | cons a l =>
      simp only [Option.some.injEq, Prod.mk.injEq] at hs
      obtain ⟨rfl, rfl⟩ := hs
      simp [rest, Isr.rank, Isr.early, Isr.popping, hisr, size_eq h.rep, size_eq (rep_pop h.rep)]
  case txEmpty =>
    simp only [Option.some.injEq, Prod.mk.injEq] at hs
    obtain ⟨rfl, rfl⟩ := hs
    by_cases hn : AtomicQueue.isEmpty s.tx = true
    · have := (isEmpty_iff h.rep).1 hn
      subst this
      simp [rest, Isr.rank, Isr.early, Isr.popping, hisr, hn, size_eq h.rep]
    · simp [rest, Isr.rank, Isr.early, Isr.popping, hisr, hn]
  case txCheck =>
    simp only [Option.some.injEq, Prod.mk.injEq] at hs
    obtain ⟨rfl, rfl⟩ := hs
    cases htdr : s.hw.tdr <;> simp [rest, Isr.rank, Isr.early, Isr.popping, hisr, htdr]
  all_goals
    repeat' split at hs
    all_goals simp only [Option.some.injEq, Prod.mk.injEq, reduceCtorEq] at hs
    all_goals
      obtain ⟨rfl, rfl⟩ := hs
      try split
      all_goals simp [rest, Isr.rank, Isr.early, Isr.popping, hisr]

/-- The handler returns. -/
theorem finish_isr {cfg : Config} {acc : List α} {d : Nat} : ∀ (k : Nat) (s : State α), s.isr.rank = k → Good cfg s acc d →
    ∃ as s' e, (∀ a ∈ as, Auto a) ∧ run cfg s as = some (s', e) ∧ Good cfg s' acc d ∧ s'.main = s.main ∧ s'.isr = .none ∧
      AtomicQueue.getSize cfg.txSize s'.tx = rest cfg s := by
  intro k
  induction k using Nat.strongRecOn with
  | _ k ih =>
    intro s hk h
    by_cases hne : s.isr = .none
    · exact ⟨[], s, [], by simp, rfl, h, rfl, hne, by simp [rest, hne, Isr.popping, Isr.early]⟩
    · obtain ⟨s1, e1, hs, hg, hm⟩ := auto_step h (a := .isr) trivial
      obtain ⟨l, ht⟩ := h.tx
      obtain ⟨h1, h2⟩ := isr_rest ht hne hs
      obtain ⟨as, s', e, ha, hr, hg', hm', hn, hsz⟩ := ih _ (by omega) s1 rfl hg
      refine ⟨.isr :: as, s', e1 ++ e, ?_, ?_, hg', hm'.trans hm, hn, hsz.trans h2⟩
      · intro a ha'
        rcases List.mem_cons.1 ha' with rfl | h'
        · trivial
        · exact ha a h'
      · simp [run, hs, hr]

theorem isr_rdr {cfg : Config} {s s' : State α} {e : List (Ev α)} (hs : isrStep cfg s = some (s', e)) (h : s.hw.rdr = none) :
    s'.hw.rdr = none := by
  unfold isrStep at hs
  cases hisr : s.isr <;> rw [hisr] at hs <;> simp only at hs
  all_goals
    repeat' split at hs
    all_goals first | (simp only [reduceCtorEq] at hs; done) | skip
    all_goals
      simp only [Option.some.injEq, Prod.mk.injEq] at hs
      obtain ⟨rfl, rfl⟩ := hs
      first | exact h | rfl

/-- The handler returns, and has not put anything into the data register. -/
theorem finish_rdr {cfg : Config} {acc : List α} {d : Nat} : ∀ (k : Nat) (s : State α), s.isr.rank = k → Good cfg s acc d → s.hw.rdr = none →
    ∃ as s' e, (∀ a ∈ as, Auto a) ∧ run cfg s as = some (s', e) ∧ Good cfg s' acc d ∧ s'.main = s.main ∧ s'.isr = .none ∧ s'.hw.rdr = none := by
  intro k
  induction k using Nat.strongRecOn with
  | _ k ih =>
    intro s hk h hrdr
    by_cases hne : s.isr = .none
    · exact ⟨[], s, [], by simp, rfl, h, rfl, hne, hrdr⟩
    · obtain ⟨s1, e1, hs, hg, hm⟩ := auto_step h (a := .isr) trivial
      obtain ⟨l, ht⟩ := h.tx
      obtain ⟨h1, h2⟩ := isr_rest ht hne hs
      obtain ⟨as, s', e, ha, hr, hg', hm', hn, hz⟩ := ih _ (by omega) s1 rfl hg (isr_rdr hs hrdr)
      refine ⟨.isr :: as, s', e1 ++ e, ?_, ?_, hg', hm'.trans hm, hn, hz⟩
      · intro a ha'
        rcases List.mem_cons.1 ha' with rfl | h'
        · trivial
        · exact ha a h'
      · simp [run, hs, hr]

/-- The handler fetches a byte from the data register. -/
theorem fetch {cfg : Config} (h0 : cfg.rxSize ≠ 0) {acc : List α} {d : Nat} (s : State α) (h : Good cfg s acc d) :
    ∃ as s' e, (∀ a ∈ as, Auto a) ∧ run cfg s as = some (s', e) ∧ Good cfg s' acc d ∧ s'.main = s.main ∧ s'.isr = .none ∧ s'.hw.rdr = none := by
  obtain ⟨as1, s1, e1, ha1, hr1, hg1, hm1, hn1, -⟩ := finish_isr _ s rfl h
  cases hrdr : s1.hw.rdr with
  | none => exact ⟨as1, s1, e1, ha1, hr1, hg1, hm1, hn1, hrdr⟩
  | some x =>
    obtain ⟨s2, e2, hs2, hg2, hm2⟩ := auto_step hg1 (a := .interrupt) trivial
    obtain ⟨s3, e3, hs3, hg3, hm3⟩ := auto_step hg2 (a := .isr) trivial
    obtain ⟨s4, e4, hs4, hg4, hm4⟩ := auto_step hg3 (a := .isr) trivial
    have hp : pending cfg s1.hw = true := by simp [pending, h0, hrdr]
    simp only [step, hn1, hp, Bool.true_or, if_true, if_neg h0, Option.some.injEq, Prod.mk.injEq] at hs2
    obtain ⟨rfl, rfl⟩ := hs2
    simp only [step, isrStep, hrdr, Option.isSome_some, if_true, Option.some.injEq, Prod.mk.injEq] at hs3
    obtain ⟨rfl, rfl⟩ := hs3
    simp only [step, isrStep, hrdr, Option.some.injEq, Prod.mk.injEq] at hs4
    obtain ⟨rfl, rfl⟩ := hs4
    obtain ⟨as5, s5, e5, ha5, hr5, hg5, hm5, hn5, hz5⟩ := finish_rdr _ _ rfl hg4 rfl
    refine ⟨as1 ++ (.interrupt :: .isr :: .isr :: as5), s5, e1 ++ e5, ?_, ?_, hg5, hm5.trans hm1, hn5, hz5⟩
    · intro a ha
      simp only [List.mem_append, List.mem_cons] at ha
      rcases ha with h' | rfl | rfl | rfl | h'
      · exact ha1 a h'
      · trivial
      · trivial
      · trivial
      · exact ha5 a h'
    · refine run_append cfg as1 _ hr1 ?_
      simp [run, step, hn1, hp, isrStep, hrdr, h0, hr5]

/-- The data register and the shift register become empty. -/
theorem empty_hw {cfg : Config} {acc : List α} {d : Nat} (s : State α) (h : Good cfg s acc d) :
    ∃ as s' e, (∀ a ∈ as, Auto a) ∧ run cfg s as = some (s', e) ∧ Good cfg s' acc d ∧ s'.main = s.main ∧ s'.isr = s.isr ∧
      s'.tx = s.tx ∧ s'.hw.tdr = none ∧ s'.hw.shift = none := by
  obtain ⟨s1, e1, hs1, hg1, hm1⟩ := auto_step h (a := .sent) trivial
  obtain ⟨s2, e2, hs2, hg2, hm2⟩ := auto_step hg1 (a := .load) trivial
  obtain ⟨s3, e3, hs3, hg3, hm3⟩ := auto_step hg2 (a := .sent) trivial
  refine ⟨[.sent, .load, .sent], s3, e1 ++ (e2 ++ (e3 ++ [])), ?_, by simp [run, hs1, hs2, hs3], hg3, (hm3.trans hm2).trans hm1, ?_⟩
  · intro a ha; simp at ha; rcases ha with rfl | rfl | rfl <;> trivial
  · obtain ⟨⟨tdr, shift, wire, rdr, ore, txeie⟩, tx, rx, main, isr⟩ := s
    cases tdr <;> cases shift <;> simp only [step, Option.some.injEq, Prod.mk.injEq] at hs1 <;> obtain ⟨rfl, rfl⟩ := hs1 <;>
    simp only [step, Option.some.injEq, Prod.mk.injEq] at hs2 <;> obtain ⟨rfl, rfl⟩ := hs2 <;>
    simp only [step, Option.some.injEq, Prod.mk.injEq] at hs3 <;> obtain ⟨rfl, rfl⟩ := hs3 <;>
    exact ⟨rfl, rfl, rfl, rfl⟩

theorem drain {cfg : Config} {acc : List α} {d : Nat} : ∀ (k : Nat) (s : State α), rest cfg s = k → s.main.awake = false → Good cfg s acc d →
    ∃ as s' e, (∀ a ∈ as, Auto a) ∧ run cfg s as = some (s', e) ∧ Good cfg s' acc d ∧ s'.main = s.main ∧ s'.isr = .none ∧
      s'.hw.tdr = none ∧ s'.hw.shift = none ∧ AtomicQueue.getSize cfg.txSize s'.tx = 0 := by
  intro k
  induction k using Nat.strongRecOn with
  | _ k ih =>
    intro s hk haw h
    obtain ⟨as1, s1, e1, ha1, hr1, hg1, hm1, hn1, hz1⟩ := finish_isr _ s rfl h
    obtain ⟨as2, s2, e2, ha2, hr2, hg2, hm2, hn2, hx2, ht2, hsh2⟩ := empty_hw s1 hg1
    have hr12 := run_append cfg as1 as2 hr1 hr2
    by_cases hz : AtomicQueue.getSize cfg.txSize s2.tx = 0
    · refine ⟨as1 ++ as2, s2, e1 ++ e2, ?_, hr12, hg2, hm2.trans hm1, hn2.trans hn1, ht2, hsh2, hz⟩
      intro a ha; rcases List.mem_append.1 ha with h' | h'
      · exact ha1 a h'
      · exact ha2 a h'
    · obtain ⟨l, htx⟩ := hg2.tx
      have hl : l ≠ [] := by intro h0; subst h0; exact hz (size_eq htx.rep)
      have hie : s2.hw.txeie = true := by
        rcases htx.live hl with h' | h'
        · exact h'
        · rw [hm2, hm1, haw] at h'; cases h'
      have hpend : pending cfg s2.hw = true := by simp [pending, hie, ht2]
      obtain ⟨s3, e3, hs3, hg3, hm3⟩ := auto_step hg2 (a := .interrupt) trivial
      have hst : s3 = { s2 with isr := if cfg.rxSize = 0 then .txCheck else .rxCheck } := by
        have := hs3
        simp only [step, hn2.trans hn1, hpend, Bool.true_or, if_true, Option.some.injEq, Prod.mk.injEq] at this
        exact this.1.symm
      have hrest : rest cfg s3 < k := by
        have : rest cfg s3 = AtomicQueue.getSize cfg.txSize s2.tx - 1 := by
          subst hst
          by_cases h0 : cfg.rxSize = 0 <;> simp [rest, h0, Isr.popping, Isr.early, ht2]
        rw [this, hx2, hz1] at *
        omega
      obtain ⟨as4, s4, e4, ha4, hr4, hg4, hm4, hn4, ht4, hsh4, hz4⟩ := ih _ hrest s3 rfl (by rw [hm3, hm2, hm1]; exact haw) hg3
      refine ⟨(as1 ++ as2) ++ (.interrupt :: as4), s4, (e1 ++ e2) ++ (e3 ++ e4), ?_, run_append cfg _ _ hr12 (by simp [run, hs3, hr4]),
        hg4, ((hm4.trans hm3).trans hm2).trans hm1, hn4, ht4, hsh4, hz4⟩
      intro a ha
      simp only [List.mem_append, List.mem_cons] at ha
      rcases ha with (h' | h') | (rfl | h')
      · exact ha1 a h'
      · exact ha2 a h'
      · trivial
      · exact ha4 a h'

/-! ### Results -/

theorem Reach.trans {cfg : Config} {ok : State α → Act α → Prop} {s0 s1 s2 : State α} {tr1 tr2 : List (Ev α)}
    (h1 : Reach cfg ok s0 s1 tr1) (h2 : Reach cfg ok s1 s2 tr2) : Reach cfg ok s0 s2 (tr1 ++ tr2) := by
  induction h2 with
  | start => simpa using h1
  | step a _ ha hs ih => rw [← List.append_assoc]; exact .step a ih ha hs

/-- Only the main program returns from calls. -/
theorem done_main {cfg : Config} {s s' : State α} {e : List (Ev α)} {r : Result α} {a : Act α} (hs : step cfg s a = some (s', e))
    (h : Ev.done r ∈ e) : s.isr = .none ∧ mainStep cfg s = some (s', e) := by
  cases a with
  | main =>
    simp only [step] at hs
    split at hs
    · rename_i hisr; exact ⟨hisr, hs⟩
    · simp only [Option.some.injEq, Prod.mk.injEq] at hs; rw [← hs.2] at h; simp at h
  | isr =>
    exfalso
    simp only [step] at hs
    unfold isrStep at hs
    cases hisr : s.isr <;> rw [hisr] at hs <;> simp only at hs
    case ackRead =>
      simp only [Option.some.injEq, Prod.mk.injEq] at hs; rw [← hs.2] at h
      unfold eatenBy at h; split at h <;> simp at h
    case rxPush x =>
      split at hs
      · simp at hs
      · simp only [Option.some.injEq, Prod.mk.injEq] at hs; rw [← hs.2] at h; split at h <;> simp at h
    all_goals
      repeat' split at hs
      all_goals simp only [Option.some.injEq, Prod.mk.injEq, reduceCtorEq] at hs
      all_goals rw [← hs.2] at h; simp at h
  | _ =>
    exfalso
    simp only [step] at hs
    repeat' split at hs
    all_goals simp only [Option.some.injEq, Prod.mk.injEq] at hs; rw [← hs.2] at h; simp at h

theorem eatenBy_done (hw : Hw α) (r : Result α) : Ev.done r ∉ eatenBy hw := by
  unfold eatenBy; split <;> simp

theorem done_wrote {cfg : Config} {s s' : State α} {e : List (Ev α)} {n : Nat} (hs : mainStep cfg s = some (s', e))
    (h : Ev.done (.wrote n) ∈ e) :
    (∃ x rest, s.main = .write .full x rest n ∧ next cfg.txSize s.tx.head = s.tx.tail ∧ s' = { s with main := .idle } ∧ e = [.done (.wrote n)]) ∨
    (∃ k x i, s.main = .write k x [] i ∧ n = i + 1) := by
  unfold mainStep at hs
  cases hmain : s.main <;> rw [hmain] at hs <;> simp only at hs
  case write k x rest i =>
    have hnb : Ev.done (.wrote n) ∈ (nextByte rest (i + 1)).2 → rest = [] ∧ n = i + 1 := by
      cases rest <;> simp [nextByte]
    unfold writeStep at hs
    cases k <;> simp only at hs
    case full =>
      split at hs <;> rename_i hf <;> simp only [Option.some.injEq, Prod.mk.injEq] at hs <;> obtain ⟨rfl, rfl⟩ := hs
      · simp at h; subst h; exact Or.inl ⟨x, rest, rfl, hf, rfl, rfl⟩
      · simp at h
    all_goals
      repeat' split at hs
      all_goals simp only [Option.some.injEq, Prod.mk.injEq, reduceCtorEq] at hs
      all_goals
        obtain ⟨rfl, rfl⟩ := hs
        try simp at h
      all_goals
        obtain ⟨rfl, rfl⟩ := hnb h
        exact Or.inr ⟨_, _, _, rfl, rfl⟩
  case blocking b x rest =>
    exfalso
    cases b <;> simp only [Option.some.injEq, Prod.mk.injEq] at hs
    · rw [← hs.2] at h; simp at h
    · cases rest <;> rw [← hs.2] at h <;> simp at h
  case finish b loop | txSize b | rxSize b =>
    exfalso
    cases b <;> simp only at hs
    all_goals
      repeat' split at hs
      all_goals simp only [Option.some.injEq, Prod.mk.injEq] at hs; rw [← hs.2] at h; simp at h
  case clear b =>
    exfalso
    cases b <;> simp only at hs
    · split at hs <;> simp only [Option.some.injEq, Prod.mk.injEq] at hs <;> rw [← hs.2] at h <;> simp at h
    · simp only [Option.some.injEq, Prod.mk.injEq] at hs; rw [← hs.2] at h
      simp [eatenBy_done] at h
  all_goals
    exfalso
    repeat' split at hs
    all_goals simp only [Option.some.injEq, Prod.mk.injEq, reduceCtorEq] at hs
    all_goals rw [← hs.2] at h; simp [readDone] at h

theorem done_finished {cfg : Config} {s s' : State α} {e : List (Ev α)} {b : Bool} (hs : mainStep cfg s = some (s', e))
    (h : Ev.done (.finished b) ∈ e) :
    s' = { s with main := .idle } ∧ e = [.done (.finished b)] ∧
    ((b = true ∧ s.hw.tdr = none ∧ ∃ loop, s.main = .finish true loop) ∨
     (b = false ∧ s.hw.tdr ≠ none ∧ s.main = .finish true false) ∨
     (b = false ∧ AtomicQueue.isEmpty s.tx = false ∧ s.main = .finish false false)) := by
  unfold mainStep at hs
  cases hmain : s.main <;> rw [hmain] at hs <;> simp only at hs
  case finish c loop =>
    cases c <;> simp only at hs
    · split at hs
      · simp only [Option.some.injEq, Prod.mk.injEq] at hs; rw [← hs.2] at h; simp at h
      · rename_i hn
        split at hs <;> rename_i hl <;> simp only [Option.some.injEq, Prod.mk.injEq] at hs
        · rw [← hs.2] at h; simp at h
        · obtain ⟨rfl, rfl⟩ := hs
          simp at h; subst h
          exact ⟨rfl, rfl, Or.inr (Or.inr ⟨rfl, by simpa using hn, by simp at hl; rw [hl]⟩)⟩
    · split at hs
      · rename_i hn
        simp only [Option.some.injEq, Prod.mk.injEq] at hs; obtain ⟨rfl, rfl⟩ := hs
        simp at h; subst h
        exact ⟨rfl, rfl, Or.inl ⟨rfl, by simpa using hn, loop, rfl⟩⟩
      · rename_i hn
        split at hs <;> rename_i hl <;> simp only [Option.some.injEq, Prod.mk.injEq] at hs
        · rw [← hs.2] at h; simp at h
        · obtain ⟨rfl, rfl⟩ := hs
          simp at h; subst h
          exact ⟨rfl, rfl, Or.inr (Or.inl ⟨rfl, by simpa using hn, by simp at hl; rw [hl]⟩)⟩
  case write k x rest i =>
    exfalso
    have hnb : Ev.done (.finished b) ∉ (nextByte rest (i + 1)).2 := by cases rest <;> simp [nextByte]
    unfold writeStep at hs
    cases k <;> simp only at hs
    all_goals
      repeat' split at hs
      all_goals simp only [Option.some.injEq, Prod.mk.injEq, reduceCtorEq] at hs
      all_goals
        rw [← hs.2] at h
        simp [hnb] at h
  case blocking c x rest =>
    exfalso
    cases c <;> simp only [Option.some.injEq, Prod.mk.injEq] at hs
    · rw [← hs.2] at h; simp at h
    · cases rest <;> rw [← hs.2] at h <;> simp at h
  case txSize b | rxSize b =>
    exfalso
    cases b <;> simp only at hs
    all_goals
      repeat' split at hs
      all_goals simp only [Option.some.injEq, Prod.mk.injEq] at hs; rw [← hs.2] at h; simp at h
  case clear b =>
    exfalso
    cases b <;> simp only at hs
    · split at hs <;> simp only [Option.some.injEq, Prod.mk.injEq] at hs <;> rw [← hs.2] at h <;> simp at h
    · simp only [Option.some.injEq, Prod.mk.injEq] at hs; rw [← hs.2] at h
      simp [eatenBy_done] at h
  all_goals
    exfalso
    repeat' split at hs
    all_goals simp only [Option.some.injEq, Prod.mk.injEq, reduceCtorEq] at hs
    all_goals rw [← hs.2] at h; simp [readDone] at h

theorem done_txSize {cfg : Config} {s s' : State α} {e : List (Ev α)} {n : Nat} (hs : mainStep cfg s = some (s', e))
    (h : Ev.done (.txSize n) ∈ e) :
    s' = { s with main := .idle } ∧ e = [.done (.txSize n)] ∧
      ∃ hd, s.main = .txSize (some hd) ∧ n = AtomicQueue.getSize cfg.txSize { s.tx with head := hd } := by
  unfold mainStep at hs
  cases hmain : s.main <;> rw [hmain] at hs <;> simp only at hs
  case txSize o =>
    cases o <;> simp only [Option.some.injEq, Prod.mk.injEq] at hs <;> obtain ⟨rfl, rfl⟩ := hs <;> simp at h
    subst h
    exact ⟨rfl, rfl, _, rfl, rfl⟩
  case write k x rest i =>
    exfalso
    have hnb : Ev.done (.txSize n) ∉ (nextByte rest (i + 1)).2 := by cases rest <;> simp [nextByte]
    unfold writeStep at hs
    cases k <;> simp only at hs
    all_goals
      repeat' split at hs
      all_goals simp only [Option.some.injEq, Prod.mk.injEq, reduceCtorEq] at hs
      all_goals
        rw [← hs.2] at h
        simp [hnb] at h
  case blocking c x rest =>
    exfalso
    cases c <;> simp only [Option.some.injEq, Prod.mk.injEq] at hs
    · rw [← hs.2] at h; simp at h
    · cases rest <;> rw [← hs.2] at h <;> simp at h
  case finish b loop | rxSize b =>
    exfalso
    cases b <;> simp only at hs
    all_goals
      repeat' split at hs
      all_goals simp only [Option.some.injEq, Prod.mk.injEq] at hs; rw [← hs.2] at h; simp at h
  case clear b =>
    exfalso
    cases b <;> simp only at hs
    · split at hs <;> simp only [Option.some.injEq, Prod.mk.injEq] at hs <;> rw [← hs.2] at h <;> simp at h
    · simp only [Option.some.injEq, Prod.mk.injEq] at hs; rw [← hs.2] at h
      simp [eatenBy_done] at h
  all_goals
    exfalso
    repeat' split at hs
    all_goals simp only [Option.some.injEq, Prod.mk.injEq, reduceCtorEq] at hs
    all_goals rw [← hs.2] at h; simp [readDone] at h

theorem done_rxSize {cfg : Config} {s s' : State α} {e : List (Ev α)} {n : Nat} (hs : mainStep cfg s = some (s', e))
    (h : Ev.done (.rxSize n) ∈ e) (h0 : cfg.rxSize ≠ 0) :
    s' = { s with main := .idle } ∧ e = [.done (.rxSize n)] ∧
      ∃ hd, s.main = .rxSize (some hd) ∧ n = AtomicQueue.getSize cfg.rxSize { s.rx with head := hd } := by
  unfold mainStep at hs
  cases hmain : s.main <;> rw [hmain] at hs <;> simp only at hs
  case rxSize o =>
    cases o <;> simp only [if_neg h0, Option.some.injEq, Prod.mk.injEq] at hs <;> obtain ⟨rfl, rfl⟩ := hs <;> simp at h
    subst h
    exact ⟨rfl, rfl, _, rfl, rfl⟩
  case write k x rest i =>
    exfalso
    have hnb : Ev.done (.rxSize n) ∉ (nextByte rest (i + 1)).2 := by cases rest <;> simp [nextByte]
    unfold writeStep at hs
    cases k <;> simp only at hs
    all_goals
      repeat' split at hs
      all_goals simp only [Option.some.injEq, Prod.mk.injEq, reduceCtorEq] at hs
      all_goals
        rw [← hs.2] at h
        simp [hnb] at h
  case blocking c x rest =>
    exfalso
    cases c <;> simp only [Option.some.injEq, Prod.mk.injEq] at hs
    · rw [← hs.2] at h; simp at h
    · cases rest <;> rw [← hs.2] at h <;> simp at h
  case finish b loop | txSize b =>
    exfalso
    cases b <;> simp only at hs
    all_goals
      repeat' split at hs
      all_goals simp only [Option.some.injEq, Prod.mk.injEq] at hs; rw [← hs.2] at h; simp at h
  case clear b =>
    exfalso
    cases b <;> simp only at hs
    · split at hs <;> simp only [Option.some.injEq, Prod.mk.injEq] at hs <;> rw [← hs.2] at h <;> simp at h
    · simp only [Option.some.injEq, Prod.mk.injEq] at hs; rw [← hs.2] at h
      simp [eatenBy_done] at h
  all_goals
    exfalso
    repeat' split at hs
    all_goals simp only [Option.some.injEq, Prod.mk.injEq, reduceCtorEq] at hs
    all_goals rw [← hs.2] at h; simp [readDone] at h

theorem done_discardedTx {cfg : Config} {s s' : State α} {e : List (Ev α)} {n : Nat} (hs : mainStep cfg s = some (s', e))
    (h : Ev.done (.discardedTx n) ∈ e) :
    s' = { s with main := .idle } ∧ e = [.done (.discardedTx n)] ∧ s.main = .discardLoop n ∧ AtomicQueue.isEmpty s.tx = true := by
  unfold mainStep at hs
  cases hmain : s.main <;> rw [hmain] at hs <;> simp only at hs
  case discardLoop c =>
    split at hs <;> rename_i hn <;> simp only [Option.some.injEq, Prod.mk.injEq] at hs <;> obtain ⟨rfl, rfl⟩ := hs <;> simp at h
    subst h
    exact ⟨rfl, rfl, rfl, hn⟩
  case write k x rest i =>
    exfalso
    have hnb : Ev.done (.discardedTx n) ∉ (nextByte rest (i + 1)).2 := by cases rest <;> simp [nextByte]
    unfold writeStep at hs
    cases k <;> simp only at hs
    all_goals
      repeat' split at hs
      all_goals simp only [Option.some.injEq, Prod.mk.injEq, reduceCtorEq] at hs
      all_goals
        rw [← hs.2] at h
        simp [hnb] at h
  case blocking c x rest =>
    exfalso
    cases c <;> simp only [Option.some.injEq, Prod.mk.injEq] at hs
    · rw [← hs.2] at h; simp at h
    · cases rest <;> rw [← hs.2] at h <;> simp at h
  case finish b loop | txSize b | rxSize b =>
    exfalso
    cases b <;> simp only at hs
    all_goals
      repeat' split at hs
      all_goals simp only [Option.some.injEq, Prod.mk.injEq] at hs; rw [← hs.2] at h; simp at h
  case clear b =>
    exfalso
    cases b <;> simp only at hs
    · split at hs <;> simp only [Option.some.injEq, Prod.mk.injEq] at hs <;> rw [← hs.2] at h <;> simp at h
    · simp only [Option.some.injEq, Prod.mk.injEq] at hs; rw [← hs.2] at h
      simp [eatenBy_done] at h
  all_goals
    exfalso
    repeat' split at hs
    all_goals simp only [Option.some.injEq, Prod.mk.injEq, reduceCtorEq] at hs
    all_goals rw [← hs.2] at h; simp [readDone] at h

theorem done_received {cfg : Config} {s s' : State α} {e : List (Ev α)} {xs : List α} (hs : mainStep cfg s = some (s', e))
    (h : Ev.done (.received xs) ∈ e) (h0 : cfg.rxSize ≠ 0) (hd : s.main ≠ .readDirect) :
    s' = { s with main := .idle } ∧ e = [.done (.received xs)] ∧
      ∃ k, s.main = .read k xs ∧ (k = 0 ∨ AtomicQueue.isEmpty s.rx = true) := by
  unfold mainStep at hs
  cases hmain : s.main <;> rw [hmain] at hs <;> simp only at hs
  case readDirect => exact absurd hmain hd
  case read k g =>
    rw [if_neg h0] at hs
    split at hs
    · rename_i hk
      simp only [Option.some.injEq, Prod.mk.injEq] at hs; obtain ⟨rfl, rfl⟩ := hs
      simp [readDone] at h; subst h
      exact ⟨rfl, rfl, k, rfl, Or.inl hk⟩
    · split at hs <;> rename_i hn <;> simp only [Option.some.injEq, Prod.mk.injEq] at hs <;> obtain ⟨rfl, rfl⟩ := hs <;>
      simp [readDone] at h
      subst h
      exact ⟨rfl, rfl, k, rfl, Or.inr hn⟩
  case write k x rest i =>
    exfalso
    have hnb : Ev.done (.received xs) ∉ (nextByte rest (i + 1)).2 := by cases rest <;> simp [nextByte]
    unfold writeStep at hs
    cases k <;> simp only at hs
    all_goals
      repeat' split at hs
      all_goals simp only [Option.some.injEq, Prod.mk.injEq, reduceCtorEq] at hs
      all_goals
        rw [← hs.2] at h
        simp [hnb] at h
  case blocking c x rest =>
    exfalso
    cases c <;> simp only [Option.some.injEq, Prod.mk.injEq] at hs
    · rw [← hs.2] at h; simp at h
    · cases rest <;> rw [← hs.2] at h <;> simp at h
  case finish b loop | txSize b | rxSize b =>
    exfalso
    cases b <;> simp only at hs
    all_goals
      repeat' split at hs
      all_goals simp only [Option.some.injEq, Prod.mk.injEq] at hs; rw [← hs.2] at h; simp at h
  case clear b =>
    exfalso
    cases b <;> simp only at hs
    · split at hs <;> simp only [Option.some.injEq, Prod.mk.injEq] at hs <;> rw [← hs.2] at h <;> simp at h
    · simp only [Option.some.injEq, Prod.mk.injEq] at hs; rw [← hs.2] at h
      simp [eatenBy_done] at h
  all_goals
    exfalso
    repeat' split at hs
    all_goals simp only [Option.some.injEq, Prod.mk.injEq, reduceCtorEq] at hs
    all_goals rw [← hs.2] at h; simp at h

/-! ### Counting -/

/-- The number of bytes which have left the transmit queue. -/
def count (s : State α) : Nat := s.hw.wire.length + (s.hw.shift.toList.length + s.hw.tdr.toList.length)

theorem toList_le (o : Option α) (x : α) : o.toList.length ≤ (some x).toList.length := by cases o <;> simp

theorem count_mono {cfg : Config} {s s' : State α} {e : List (Ev α)} (a : Act α) (hs : step cfg s a = some (s', e)) : count s ≤ count s' := by
  have key : ∀ x, count s ≤ count { s with hw := { s.hw with tdr := some x } } := by
    intro x; have := toList_le s.hw.tdr x; simp only [count]; omega
  cases a with
  | load =>
    simp only [step] at hs
    split at hs <;> simp only [Option.some.injEq, Prod.mk.injEq] at hs <;> obtain ⟨rfl, rfl⟩ := hs
    · rename_i h1 h2; simp [count, h1, h2]
    · exact Nat.le_refl _
  | sent =>
    simp only [step] at hs
    split at hs <;> simp only [Option.some.injEq, Prod.mk.injEq] at hs <;> obtain ⟨rfl, rfl⟩ := hs
    · rename_i h1; simp [count, h1]; omega
    · exact Nat.le_refl _
  | isr =>
    simp only [step] at hs
    unfold isrStep at hs
    cases hisr : s.isr <;> rw [hisr] at hs <;> simp only at hs
    all_goals
      repeat' split at hs
      all_goals simp only [Option.some.injEq, Prod.mk.injEq, reduceCtorEq] at hs
      all_goals
        obtain ⟨rfl, -⟩ := hs
        first | exact Nat.le_refl _ | exact key _
  | main =>
    simp only [step] at hs
    split at hs
    · unfold mainStep at hs
      cases hmain : s.main <;> rw [hmain] at hs <;> simp only at hs
      case write k x rest i =>
        unfold writeStep at hs
        cases k <;> simp only at hs
        all_goals
          repeat' split at hs
          all_goals simp only [Option.some.injEq, Prod.mk.injEq, reduceCtorEq] at hs
          all_goals
            obtain ⟨rfl, -⟩ := hs
            first | exact Nat.le_refl _ | exact key _
      case blocking b x rest =>
        cases b <;> simp only [Option.some.injEq, Prod.mk.injEq] at hs <;> obtain ⟨rfl, -⟩ := hs
        · exact Nat.le_refl _
        · exact key _
      case finish b loop | txSize b | rxSize b | clear b =>
        cases b <;> simp only at hs
        all_goals
          repeat' split at hs
          all_goals simp only [Option.some.injEq, Prod.mk.injEq] at hs; obtain ⟨rfl, -⟩ := hs; exact Nat.le_refl _
      all_goals
        repeat' split at hs
        all_goals simp only [Option.some.injEq, Prod.mk.injEq, reduceCtorEq] at hs
        all_goals obtain ⟨rfl, -⟩ := hs; exact Nat.le_refl _
    · simp only [Option.some.injEq, Prod.mk.injEq] at hs; obtain ⟨rfl, -⟩ := hs; exact Nat.le_refl _
  | _ =>
    simp only [step] at hs
    repeat' split at hs
    all_goals simp only [Option.some.injEq, Prod.mk.injEq] at hs; obtain ⟨rfl, -⟩ := hs; exact Nat.le_refl _

theorem count_reach {cfg : Config} {ok : State α → Act α → Prop} {s0 s : State α} {tr : List (Ev α)} (h : Reach cfg ok s0 s tr) :
    count s0 ≤ count s := by
  induction h with
  | start => exact Nat.le_refl _
  | step a _ ha hs ih => exact Nat.le_trans ih (count_mono a hs)

/-- The number of bytes which have arrived and not been put into the receive queue yet. -/
def before (s : State α) : Nat := s.isr.byte.length + s.hw.rdr.toList.length

theorem before_step {cfg : Config} {s s' : State α} {e : List (Ev α)} (a : Act α) (hs : step cfg s a = some (s', e)) :
    (overflows e).length + (eatens e).length + before s' ≤ (arrivals e).length + before s := by
  cases a with
  | load | sent =>
    simp only [step] at hs
    repeat' split at hs
    all_goals simp only [Option.some.injEq, Prod.mk.injEq] at hs; obtain ⟨rfl, rfl⟩ := hs; simp [before, overflows, eatens, arrivals]
  | call c =>
    simp only [step] at hs
    repeat' split at hs
    all_goals simp only [Option.some.injEq, Prod.mk.injEq] at hs; obtain ⟨rfl, rfl⟩ := hs; simp [before, overflows, eatens, arrivals]
  | interrupt =>
    simp only [step] at hs
    repeat' split at hs
    all_goals simp only [Option.some.injEq, Prod.mk.injEq] at hs; obtain ⟨rfl, rfl⟩ := hs; simp [before, overflows, eatens, arrivals, Isr.byte]
  | arrive x =>
    simp only [step] at hs
    split at hs <;> rename_i hr <;> simp only [Option.some.injEq, Prod.mk.injEq] at hs <;> obtain ⟨rfl, rfl⟩ := hs <;>
    simp [before, overflows, eatens, arrivals, hr]; omega
  | isr =>
    simp only [step] at hs
    unfold isrStep at hs
    cases hisr : s.isr <;> rw [hisr] at hs <;> simp only at hs
    case ackRead =>
      simp only [Option.some.injEq, Prod.mk.injEq] at hs; obtain ⟨rfl, rfl⟩ := hs
      unfold eatenBy; cases hr : s.hw.rdr <;> simp [before, overflows, eatens, arrivals, Isr.byte, hr, hisr]
    case rxPush x =>
      split at hs
      · simp at hs
      · simp only [Option.some.injEq, Prod.mk.injEq] at hs; obtain ⟨rfl, rfl⟩ := hs
        split <;> simp [before, overflows, eatens, arrivals, Isr.byte, hisr]
    all_goals
      repeat' split at hs
      all_goals simp only [Option.some.injEq, Prod.mk.injEq, reduceCtorEq] at hs
      all_goals
        obtain ⟨rfl, rfl⟩ := hs
        try split
        all_goals first
          | simp [before, overflows, eatens, arrivals, Isr.byte, hisr]; done
          | (rename_i hr; simp [before, overflows, eatens, arrivals, Isr.byte, hisr, hr])
  | main =>
    simp only [step] at hs
    split at hs
    · unfold mainStep at hs
      cases hmain : s.main <;> rw [hmain] at hs <;> simp only at hs
      case write k x rest i =>
        have hnb : overflows (nextByte rest (i + 1)).2 = [] ∧ eatens (nextByte rest (i + 1)).2 = [] ∧ arrivals (nextByte rest (i + 1)).2 = [] := by
          cases rest <;> exact ⟨rfl, rfl, rfl⟩
        unfold writeStep at hs
        cases k <;> simp only at hs
        all_goals
          repeat' split at hs
          all_goals simp only [Option.some.injEq, Prod.mk.injEq, reduceCtorEq] at hs
          all_goals
            obtain ⟨rfl, rfl⟩ := hs
            simp [before, overflows, eatens, arrivals, hnb]
      case blocking b x rest =>
        cases b <;> simp only [Option.some.injEq, Prod.mk.injEq] at hs
        · obtain ⟨rfl, rfl⟩ := hs; simp [before, overflows, eatens, arrivals]
        · cases rest <;> obtain ⟨rfl, rfl⟩ := hs <;> simp [before, overflows, eatens, arrivals]
      case finish b loop | txSize b | rxSize b =>
        cases b <;> simp only at hs
        all_goals
          repeat' split at hs
          all_goals simp only [Option.some.injEq, Prod.mk.injEq] at hs; obtain ⟨rfl, rfl⟩ := hs; simp [before, overflows, eatens, arrivals]
      case clear b =>
        cases b <;> simp only at hs
        · split at hs <;> simp only [Option.some.injEq, Prod.mk.injEq] at hs <;> obtain ⟨rfl, rfl⟩ := hs <;>
          simp [before, overflows, eatens, arrivals]
        · simp only [Option.some.injEq, Prod.mk.injEq] at hs; obtain ⟨rfl, rfl⟩ := hs
          unfold eatenBy; cases hr : s.hw.rdr <;> simp [before, overflows, eatens, arrivals, hr] <;> omega
      all_goals
        repeat' split at hs
        all_goals simp only [Option.some.injEq, Prod.mk.injEq, reduceCtorEq] at hs
        all_goals obtain ⟨rfl, rfl⟩ := hs; simp [before, overflows, eatens, arrivals, readDone]
    · simp only [Option.some.injEq, Prod.mk.injEq] at hs; obtain ⟨rfl, rfl⟩ := hs; simp [before, overflows, eatens, arrivals]

theorem before_reach {cfg : Config} {ok : State α → Act α → Prop} {s0 s : State α} {tr : List (Ev α)} (h : Reach cfg ok s0 s tr) :
    (overflows tr).length + (eatens tr).length + before s ≤ (arrivals tr).length + before s0 := by
  induction h with
  | start => simp [overflows, eatens, arrivals]
  | step a _ ha hs ih =>
    have := before_step a hs
    rw [overflows_append, eatens_append, arrivals_append]
    simp only [List.length_append]
    omega

end Modm.Uart
