import Verif.Spec.Uart
import Verif.Lemmas.AtomicQueue

set_option autoImplicit false

namespace Modm.Uart

open Modm.AtomicQueue (Q next Rep head_le full_iff empty_iff size_eq rep_init rep_push rep_pop rep_get next_eq wrap)

variable {α : Type}

/-! ### Events -/

def accepteds : List (Ev α) → List α
  | [] => []
  | .accepted x :: tr => x :: accepteds tr
  | _ :: tr => accepteds tr

def gots : List (Ev α) → List α
  | [] => []
  | .got x :: tr => x :: gots tr
  | _ :: tr => gots tr

def dropsTx : List (Ev α) → Nat
  | [] => 0
  | .droppedTx :: tr => dropsTx tr + 1
  | _ :: tr => dropsTx tr

def dropsRx : List (Ev α) → Nat
  | [] => 0
  | .droppedRx :: tr => dropsRx tr + 1
  | _ :: tr => dropsRx tr

theorem accepteds_append (a b : List (Ev α)) : accepteds (a ++ b) = accepteds a ++ accepteds b := by
  induction a with
  | nil => rfl
  | cons e a ih => cases e <;> simp [accepteds, ih]

theorem gots_append (a b : List (Ev α)) : gots (a ++ b) = gots a ++ gots b := by
  induction a with
  | nil => rfl
  | cons e a ih => cases e <;> simp [gots, ih]

theorem dropsTx_append (a b : List (Ev α)) : dropsTx (a ++ b) = dropsTx a + dropsTx b := by
  induction a with
  | nil => simp [dropsTx]
  | cons e a ih => cases e <;> simp [dropsTx, ih] <;> omega

theorem dropsRx_append (a b : List (Ev α)) : dropsRx (a ++ b) = dropsRx a + dropsRx b := by
  induction a with
  | nil => simp [dropsRx]
  | cons e a ih => cases e <;> simp [dropsRx, ih] <;> omega

open Spec.Uart in
theorem arrivals_append (a b : List (Ev α)) : arrivals (a ++ b) = arrivals a ++ arrivals b := by
  induction a with
  | nil => rfl
  | cons e a ih => cases e <;> simp [arrivals, ih]

open Spec.Uart in
theorem overflows_append (a b : List (Ev α)) : overflows (a ++ b) = overflows a ++ overflows b := by
  induction a with
  | nil => rfl
  | cons e a ih => cases e <;> simp [overflows, ih]

open Spec.Uart in
theorem eatens_append (a b : List (Ev α)) : eatens (a ++ b) = eatens a ++ eatens b := by
  induction a with
  | nil => rfl
  | cons e a ih => cases e <;> simp [eatens, ih]

/-! ### Queues -/

theorem rep_store {N : Nat} {q : Q α} {l : List α} (h : Rep N q l) (hl : l.length < N) (x : α) :
    q.head < q.buf.length ∧ Rep N { q with buf := q.buf.set q.head x } l ∧ (q.buf.set q.head x)[q.head]? = some x := by
  have hh : q.head < q.buf.length := by rw [h.len]; have := head_le h; omega
  refine ⟨hh, ⟨h.hN, by simpa using h.len, h.hd, h.tl, h.sz, ?_⟩, List.getElem?_set_self hh⟩
  intro k hk
  have hw : wrap (N+1) (q.tail + k) ≠ q.head := by
    have h1 := h.hd; have := h.tl
    rw [h1]; unfold wrap; repeat' split
    all_goals omega
  show (q.buf.set q.head x)[wrap (N+1) (q.tail + k)]? = _
  rw [List.getElem?_set_ne (Ne.symm hw), h.el k hk]

theorem rep_publish {N : Nat} {q : Q α} {l : List α} (h : Rep N q l) (hl : l.length < N) {x : α}
    (hx : q.buf[q.head]? = some x) : Rep N { q with head := next N q.head } (l ++ [x]) := by
  obtain ⟨q', e, hr⟩ := rep_push h x
  have hh : q.head < q.buf.length := by rw [h.len]; have := head_le h; omega
  have hne : next N q.head ≠ q.tail := fun e => by have := (full_iff h).1 e; omega
  simp only [AtomicQueue.push, beq_iff_eq, hne, if_false, hh, if_true, Option.some.injEq, Prod.mk.injEq] at e
  rw [if_pos hl, ← e.1] at hr
  have : q.buf.set q.head x = q.buf := by
    apply List.ext_getElem? ; intro i
    by_cases hi : q.head = i
    · subst hi; rw [List.getElem?_set_self hh, hx]
    · rw [List.getElem?_set_ne hi]
  rwa [this] at hr

theorem isEmpty_iff {N : Nat} {q : Q α} {l : List α} (h : Rep N q l) : AtomicQueue.isEmpty q = true ↔ l = [] := by
  rw [← List.length_eq_zero_iff, ← empty_iff h]; simp [AtomicQueue.isEmpty]

/-! ### Transmission -/

/-- The handler has written the first byte to the data register but not yet removed it. -/
def Isr.popping : Isr α → Bool
  | .txPop => true
  | _ => false

/-- What is still to be sent. -/
def waiting (s : State α) (l : List α) : List α := if s.isr.popping then l.tail else l

/-- What has been sent and what is still to be sent, in order. -/
def flow (s : State α) (l : List α) : List α := s.hw.wire ++ (s.hw.shift.toList ++ (s.hw.tdr.toList ++ waiting s l))

def IsrTx (s : State α) (l : List α) : Prop :=
  match s.isr with
  | .txEmpty => s.hw.tdr = none
  | .txDisable => s.hw.tdr = none ∧ l = []
  | .txWrite => s.hw.tdr = none ∧ l ≠ []
  | .txPop => l ≠ []
  | _ => True

def Quiet (cfg : Config) (s : State α) : Prop :=
  cfg.rxSize = 0 ∧ cfg.shared = false ∧ s.hw.txeie = false ∧ s.isr = .none

def MainTx (cfg : Config) (s : State α) (l : List α) : Prop :=
  match s.main with
  | .write .txe _ _ _ => l = []
  | .write .direct _ _ _ => l = [] ∧ s.hw.tdr = none
  | .write .store _ _ _ => l.length < cfg.txSize
  | .write .publish x _ _ => l.length < cfg.txSize ∧ s.tx.buf[s.tx.head]? = some x
  | .blocking b _ _ => l = [] ∧ (b = true → s.hw.tdr = none)
  | .finish true _ => l = []
  | .txSize (some h) => h = s.tx.head
  | .discardRead => cfg.rxSize = 0 ∧ cfg.shared = false
  | .discardWrite => cfg.rxSize = 0 ∧ cfg.shared = false
  | .discardLoop _ => Quiet cfg s
  | .discardPop _ => Quiet cfg s ∧ l ≠ []
  | .discardStore _ t => Quiet cfg s ∧ l ≠ [] ∧ t = next cfg.txSize s.tx.tail
  | _ => True

/-- Places where bytes may wait with the interrupt disabled. -/
def Main.awake : Main α → Bool
  | .write .enable _ _ _ => true
  | .discardLoop _ => true
  | .discardPop _ => true
  | .discardStore _ _ => true
  | _ => false

structure TxInv (cfg : Config) (s : State α) (l acc : List α) (d : Nat) : Prop where
  rep : Rep cfg.txSize s.tx l
  sub : (flow s l).Sublist acc
  len : (flow s l).length + d = acc.length
  isr : IsrTx s l
  main : MainTx cfg s l
  live : l ≠ [] → s.hw.txeie = true ∨ s.main.awake = true

/-- The choices for which transmission works: `writeBlocking` only while the transmit queue is empty,
`discardTransmitBuffer` only if the handler runs for the transmitter alone. -/
def TxOk (cfg : Config) (s : State α) : Act α → Prop
  | .call (.writeBlocking _ _) => AtomicQueue.isEmpty s.tx = true
  | .call .discardTransmitBuffer => cfg.rxSize = 0 ∧ cfg.shared = false
  | _ => True

def TxGoal (cfg : Config) (acc : List α) (d : Nat) (s' : State α) (e : List (Ev α)) : Prop :=
  ∃ l, TxInv cfg s' l (acc ++ accepteds e) (d + dropsTx e)

theorem MainTx.frame {cfg : Config} {s s' : State α} {l l' : List α} (h : MainTx cfg s l) (hm : s'.main = s.main)
    (hb : s'.tx.buf = s.tx.buf) (hh : s'.tx.head = s.tx.head)
    (h0 : l = [] → l' = [] ∧ (s.hw.tdr = none → s'.hw.tdr = none)) (hl : l'.length ≤ l.length)
    (hq : Quiet cfg s → Quiet cfg s' ∧ s'.tx.tail = s.tx.tail ∧ l' = l) : MainTx cfg s' l' := by
  unfold MainTx at *
  rw [hm]
  cases hmain : s.main with
  | write k x rest i =>
    rw [hmain] at h
    cases k with
    | txe => exact (h0 h).1
    | direct => exact ⟨(h0 h.1).1, (h0 h.1).2 h.2⟩
    | store => exact Nat.lt_of_le_of_lt hl h
    | publish => exact ⟨Nat.lt_of_le_of_lt hl h.1, by rw [hb, hh]; exact h.2⟩
    | _ => trivial
  | blocking b x rest => rw [hmain] at h; exact ⟨(h0 h.1).1, fun hb => (h0 h.1).2 (h.2 hb)⟩
  | finish b loop =>
    rw [hmain] at h
    cases b with
    | true => exact (h0 h).1
    | false => trivial
  | txSize o =>
    rw [hmain] at h
    cases o with
    | some hd => exact h.trans hh.symm
    | none => trivial
  | discardRead => rw [hmain] at h; exact h
  | discardWrite => rw [hmain] at h; exact h
  | discardLoop c => rw [hmain] at h; exact (hq h).1
  | discardPop c => rw [hmain] at h; exact ⟨(hq h.1).1, by rw [(hq h.1).2.2]; exact h.2⟩
  | discardStore c t =>
    rw [hmain] at h; exact ⟨(hq h.1).1, by rw [(hq h.1).2.2]; exact h.2.1, by rw [(hq h.1).2.1]; exact h.2.2⟩
  | _ => trivial

/-- A step of the handler which does not touch the transmitter. -/
theorem TxInv.isrFrame {cfg : Config} {s s' : State α} {l acc : List α} {d : Nat} (h : TxInv cfg s l acc d)
    (hne : s.isr ≠ .none) (hm : s'.main = s.main) (htx : s'.tx = s.tx) (htdr : s'.hw.tdr = s.hw.tdr)
    (hsh : s'.hw.shift = s.hw.shift) (hw : s'.hw.wire = s.hw.wire) (hp : s'.isr.popping = s.isr.popping)
    (hi : IsrTx s' l) (hl : l ≠ [] → s.hw.txeie = true → s'.hw.txeie = true) : TxInv cfg s' l acc d where
  rep := by rw [htx]; exact h.rep
  sub := by have := h.sub; unfold flow waiting at *; rw [hp, hw, hsh, htdr]; exact this
  len := by have := h.len; unfold flow waiting at *; rw [hp, hw, hsh, htdr]; exact this
  isr := hi
  main := h.main.frame hm (by rw [htx]) (by rw [htx]) (fun h0 => ⟨h0, fun h => by rw [htdr]; exact h⟩) (Nat.le_refl _)
    (fun hq => absurd hq.2.2.2 hne)
  live := fun h0 => (h.live h0).imp (hl h0) (by rw [hm]; exact id)

theorem TxGoal.quiet {cfg : Config} {s' : State α} {l acc : List α} {d : Nat} {e : List (Ev α)} (h : TxInv cfg s' l acc d)
    (h1 : accepteds e = []) (h2 : dropsTx e = 0) : TxGoal cfg acc d s' e := by
  refine ⟨l, ?_⟩
  rw [h1, h2, List.append_nil, Nat.add_zero]; exact h

theorem eatenBy_tx (h : Hw α) (e : List (Ev α)) : accepteds (eatenBy h ++ e) = accepteds e ∧ dropsTx (eatenBy h ++ e) = dropsTx e := by
  rw [accepteds_append, dropsTx_append]
  unfold eatenBy; cases h.rdr <;> simp [accepteds, dropsTx]

theorem isr_tx {cfg : Config} {s s' : State α} {l acc : List α} {d : Nat} {e : List (Ev α)} (h : TxInv cfg s l acc d)
    (hs : isrStep cfg s = some (s', e)) : TxGoal cfg acc d s' e := by
  have hi := h.isr
  unfold IsrTx at hi
  unfold isrStep at hs
  cases hisr : s.isr with
  | none =>
    rw [hisr] at hs; simp only [Option.some.injEq, Prod.mk.injEq] at hs
    obtain ⟨rfl, rfl⟩ := hs
    exact TxGoal.quiet h rfl rfl
  | rxCheck =>
    rw [hisr] at hs; simp only [Option.some.injEq, Prod.mk.injEq] at hs
    obtain ⟨rfl, rfl⟩ := hs
    refine TxGoal.quiet (h.isrFrame (by simp [hisr]) rfl rfl rfl rfl rfl ?_ ?_ (fun _ h => h)) rfl rfl
    · rw [hisr]; dsimp only; split <;> rfl
    · unfold IsrTx; dsimp only
      by_cases hn : s.hw.rdr.isSome = true <;> simp [hn]
  | rxRead =>
    rw [hisr] at hs; simp only at hs
    split at hs <;> simp only [Option.some.injEq, Prod.mk.injEq] at hs <;> obtain ⟨rfl, rfl⟩ := hs
    all_goals exact TxGoal.quiet (h.isrFrame (by simp [hisr]) rfl rfl rfl rfl rfl (by rw [hisr]; rfl) trivial (fun _ h => h)) rfl rfl
  | rxPush x =>
    rw [hisr] at hs; simp only at hs
    split at hs
    · simp at hs
    · simp only [Option.some.injEq, Prod.mk.injEq] at hs
      obtain ⟨rfl, rfl⟩ := hs
      refine TxGoal.quiet (h.isrFrame (by simp [hisr]) rfl rfl rfl rfl rfl (by rw [hisr]; rfl) trivial (fun _ h => h)) ?_ ?_ <;>
      · split <;> rfl
  | txCheck =>
    rw [hisr] at hs; simp only [Option.some.injEq, Prod.mk.injEq] at hs
    obtain ⟨rfl, rfl⟩ := hs
    refine TxGoal.quiet (h.isrFrame (by simp [hisr]) rfl rfl rfl rfl rfl ?_ ?_ (fun _ h => h)) rfl rfl
    · rw [hisr]; dsimp only; split <;> rfl
    · unfold IsrTx; dsimp only
      by_cases hn : s.hw.tdr = none <;> simp [hn]
  | txEmpty =>
    rw [hisr] at hs hi; simp only [Option.some.injEq, Prod.mk.injEq] at hs
    obtain ⟨rfl, rfl⟩ := hs
    refine TxGoal.quiet (h.isrFrame (by simp [hisr]) rfl rfl rfl rfl rfl ?_ ?_ (fun _ h => h)) rfl rfl
    · rw [hisr]; dsimp only; split <;> rfl
    · unfold IsrTx; dsimp only
      by_cases hn : AtomicQueue.isEmpty s.tx = true
      · rw [if_pos hn]; exact ⟨hi, (isEmpty_iff h.rep).1 hn⟩
      · rw [if_neg hn]; exact ⟨hi, fun h0 => hn ((isEmpty_iff h.rep).2 h0)⟩
  | txDisable =>
    rw [hisr] at hs hi; simp only [Option.some.injEq, Prod.mk.injEq] at hs
    obtain ⟨rfl, rfl⟩ := hs
    exact TxGoal.quiet (h.isrFrame (by simp [hisr]) rfl rfl rfl rfl rfl (by rw [hisr]; rfl) trivial (fun h0 => absurd hi.2 h0)) rfl rfl
  | txWrite =>
    rw [hisr] at hs hi; simp only at hs hi
    obtain ⟨htdr, hl⟩ := hi
    cases l with
    | nil => exact absurd rfl hl
    | cons a l =>
      rw [rep_get h.rep] at hs
      simp only [Option.some.injEq, Prod.mk.injEq] at hs
      obtain ⟨rfl, rfl⟩ := hs
      have hf : flow { s with isr := .txPop, hw := { s.hw with tdr := some a } } (a :: l) = flow s (a :: l) := by
        simp [flow, waiting, Isr.popping, hisr, htdr]
      refine TxGoal.quiet (l := a :: l) ⟨h.rep, by rw [hf]; exact h.sub, by rw [hf]; exact h.len, hl, ?_, h.live⟩ rfl rfl
      exact h.main.frame rfl rfl rfl (fun h0 => absurd h0 hl) (Nat.le_refl _) (fun hq => absurd hq.2.2.2 (by simp [hisr]))
  | txPop =>
    rw [hisr] at hs hi; simp only [Option.some.injEq, Prod.mk.injEq] at hs hi
    obtain ⟨rfl, rfl⟩ := hs
    cases l with
    | nil => exact absurd rfl hi
    | cons a l =>
      have hf : flow { s with isr := .ack, tx := AtomicQueue.pop cfg.txSize s.tx } l = flow s (a :: l) := by
        simp [flow, waiting, Isr.popping, hisr]
      refine TxGoal.quiet (l := l) ⟨rep_pop h.rep, by rw [hf]; exact h.sub, by rw [hf]; exact h.len, trivial, ?_,
        fun _ => h.live (by simp)⟩ rfl rfl
      exact h.main.frame rfl rfl rfl (fun h0 => absurd h0 (by simp)) (by simp) (fun hq => absurd hq.2.2.2 (by simp [hisr]))
  | ack =>
    rw [hisr] at hs; simp only at hs
    split at hs <;> simp only [Option.some.injEq, Prod.mk.injEq] at hs <;> obtain ⟨rfl, rfl⟩ := hs
    all_goals exact TxGoal.quiet (h.isrFrame (by simp [hisr]) rfl rfl rfl rfl rfl (by rw [hisr]; rfl) trivial (fun _ h => h)) rfl rfl
  | ackRead =>
    rw [hisr] at hs; simp only [Option.some.injEq, Prod.mk.injEq] at hs
    obtain ⟨rfl, rfl⟩ := hs
    refine TxGoal.quiet (h.isrFrame (by simp [hisr]) rfl rfl rfl rfl rfl (by rw [hisr]; rfl) trivial (fun _ h => h)) ?_ ?_
    · have := (eatenBy_tx s.hw []).1; simpa [accepteds] using this
    · have := (eatenBy_tx s.hw []).2; simpa [dropsTx] using this

/-- A step of the main program which does not touch the transmitter. -/
theorem TxInv.mainFrame {cfg : Config} {s s' : State α} {l acc : List α} {d : Nat} (h : TxInv cfg s l acc d)
    (hisr : s'.isr = s.isr) (htx : s'.tx = s.tx) (htdr : s'.hw.tdr = s.hw.tdr) (hsh : s'.hw.shift = s.hw.shift)
    (hw : s'.hw.wire = s.hw.wire) (hm : MainTx cfg s' l)
    (hl : l ≠ [] → s'.hw.txeie = true ∨ s'.main.awake = true) : TxInv cfg s' l acc d where
  rep := by rw [htx]; exact h.rep
  sub := by have := h.sub; unfold flow waiting at *; rw [hisr, hw, hsh, htdr]; exact this
  len := by have := h.len; unfold flow waiting at *; rw [hisr, hw, hsh, htdr]; exact this
  isr := by have := h.isr; unfold IsrTx at *; rw [hisr, htdr]; exact this
  main := hm
  live := hl

/-- Most places keep nothing in mind. -/
theorem live_of {cfg : Config} {s : State α} {l acc : List α} {d : Nat} (h : TxInv cfg s l acc d) (ha : s.main.awake = false)
    {m : Main α} : l ≠ [] → s.hw.txeie = true ∨ m.awake = true := by
  intro h0
  rcases h.live h0 with h1 | h1
  · exact Or.inl h1
  · rw [ha] at h1; cases h1

theorem nextByte_tx (cfg : Config) (s : State α) (l : List α) (rest : List α) (i : Nat) (h : s.main = (nextByte rest i).1) :
    MainTx cfg s l ∧ s.main.awake = false ∧ accepteds (nextByte rest i).2 = [] ∧ dropsTx (nextByte rest i).2 = 0 := by
  unfold MainTx
  rw [h]
  cases rest <;> exact ⟨trivial, rfl, rfl, rfl⟩

theorem write_tx {cfg : Config} {s s' : State α} {l acc : List α} {d : Nat} {e : List (Ev α)} (h : TxInv cfg s l acc d)
    (hisr : s.isr = .none) {k : WriteAt} {x : α} {rest : List α} {i : Nat} (hmain : s.main = .write k x rest i)
    (hs : writeStep cfg s k x rest i = some (s', e)) : TxGoal cfg acc d s' e := by
  have hm := h.main
  unfold MainTx at hm
  rw [hmain] at hm
  unfold writeStep at hs
  cases k with
  | empty =>
    simp only [Option.some.injEq, Prod.mk.injEq] at hs
    obtain ⟨rfl, rfl⟩ := hs
    refine TxGoal.quiet (h.mainFrame rfl rfl rfl rfl rfl ?_ (live_of h (by rw [hmain]; rfl))) rfl rfl
    unfold MainTx; dsimp only
    by_cases hn : AtomicQueue.isEmpty s.tx = true
    · rw [if_pos hn]; exact (isEmpty_iff h.rep).1 hn
    · rw [if_neg hn]; trivial
  | txe =>
    simp only [Option.some.injEq, Prod.mk.injEq] at hs
    obtain ⟨rfl, rfl⟩ := hs
    refine TxGoal.quiet (h.mainFrame rfl rfl rfl rfl rfl ?_ (live_of h (by rw [hmain]; rfl))) rfl rfl
    unfold MainTx; dsimp only
    by_cases hn : s.hw.tdr = none
    · simp only [hn, Option.isNone_none, if_true]; exact ⟨hm, trivial⟩
    · rw [if_neg (by simpa using hn)]; trivial
  | direct =>
    simp only [Option.some.injEq, Prod.mk.injEq] at hs
    obtain ⟨rfl, rfl⟩ := hs
    obtain ⟨rfl, htdr⟩ := hm
    have hn := nextByte_tx cfg { s with hw := { s.hw with tdr := some x }, main := (nextByte rest (i + 1)).1 } [] rest (i + 1) rfl
    have hf : flow { s with hw := { s.hw with tdr := some x }, main := (nextByte rest (i + 1)).1 } [] = flow s [] ++ [x] := by
      simp [flow, waiting, hisr, htdr]
    refine ⟨[], h.rep, ?_, ?_, ?_, hn.1, fun h0 => absurd rfl h0⟩
    · rw [hf, accepteds_append, hn.2.2.1]; exact h.sub.append (List.Sublist.refl _)
    · rw [hf, accepteds_append, dropsTx_append, hn.2.2.1, hn.2.2.2]
      have := h.len; simp [accepteds, dropsTx]; omega
    · simp [IsrTx, hisr]
  | full =>
    simp only at hs
    split at hs <;> simp only [Option.some.injEq, Prod.mk.injEq] at hs <;> obtain ⟨rfl, rfl⟩ := hs
    · exact TxGoal.quiet (h.mainFrame rfl rfl rfl rfl rfl trivial (live_of h (by rw [hmain]; rfl))) rfl rfl
    · rename_i hn
      refine TxGoal.quiet (h.mainFrame rfl rfl rfl rfl rfl ?_ (live_of h (by rw [hmain]; rfl))) rfl rfl
      have := mt (full_iff h.rep).2 hn
      have := h.rep.sz
      show l.length < cfg.txSize
      omega
  | store =>
    have hst := rep_store h.rep hm x
    simp only [if_pos hst.1, Option.some.injEq, Prod.mk.injEq] at hs
    obtain ⟨rfl, rfl⟩ := hs
    exact TxGoal.quiet ⟨hst.2.1, h.sub, h.len, h.isr, ⟨hm, hst.2.2⟩, live_of h (by rw [hmain]; rfl)⟩ rfl rfl
  | publish =>
    simp only [Option.some.injEq, Prod.mk.injEq] at hs
    obtain ⟨rfl, rfl⟩ := hs
    have hf : flow { s with tx := { s.tx with head := next cfg.txSize s.tx.head }, main := .write .enable x rest i } (l ++ [x]) = flow s l ++ [x] := by
      simp [flow, waiting, hisr, Isr.popping]
    refine ⟨l ++ [x], rep_publish h.rep hm.1 hm.2, ?_, ?_, ?_, trivial, fun _ => Or.inr rfl⟩
    · rw [hf]; exact h.sub.append (List.Sublist.refl _)
    · rw [hf]; have := h.len; simp [accepteds, dropsTx]; omega
    · simp [IsrTx, hisr]
  | enable =>
    simp only [Option.some.injEq, Prod.mk.injEq] at hs
    obtain ⟨rfl, rfl⟩ := hs
    have hn := nextByte_tx cfg { s with hw := { s.hw with txeie := true }, main := (nextByte rest (i + 1)).1 } l rest (i + 1) rfl
    exact TxGoal.quiet (h.mainFrame rfl rfl rfl rfl rfl hn.1 (fun _ => Or.inl rfl)) hn.2.2.1 hn.2.2.2

theorem main_tx {cfg : Config} {s s' : State α} {l acc : List α} {d : Nat} {e : List (Ev α)} (h : TxInv cfg s l acc d)
    (hisr : s.isr = .none) (hs : mainStep cfg s = some (s', e)) : TxGoal cfg acc d s' e := by
  have hm := h.main
  unfold MainTx at hm
  unfold mainStep at hs
  cases hmain : s.main with
  | idle =>
    rw [hmain] at hs; simp only [Option.some.injEq, Prod.mk.injEq] at hs
    obtain ⟨rfl, rfl⟩ := hs
    exact TxGoal.quiet h rfl rfl
  | write k x rest i => rw [hmain] at hs; exact write_tx h hisr hmain hs
  | blocking b x rest =>
    rw [hmain] at hs hm
    obtain ⟨rfl, hb⟩ := hm
    cases b with
    | false =>
      simp only [Option.some.injEq, Prod.mk.injEq] at hs
      obtain ⟨rfl, rfl⟩ := hs
      exact TxGoal.quiet (h.mainFrame rfl rfl rfl rfl rfl ⟨rfl, by simp⟩ (fun h0 => absurd rfl h0)) rfl rfl
    | true =>
      simp only [Option.some.injEq, Prod.mk.injEq] at hs
      have htdr := hb rfl
      cases rest with
      | nil =>
        obtain ⟨rfl, rfl⟩ := hs
        have hf : flow { s with hw := { s.hw with tdr := some x }, main := .idle } [] = flow s [] ++ [x] := by
          simp [flow, waiting, hisr, htdr]
        refine ⟨[], h.rep, ?_, ?_, ?_, trivial, fun h0 => absurd rfl h0⟩
        · rw [hf]; exact h.sub.append (List.Sublist.refl _)
        · rw [hf]; have := h.len; simp [accepteds, dropsTx]; omega
        · simp [IsrTx, hisr]
      | cons y ys =>
        obtain ⟨rfl, rfl⟩ := hs
        have hf : flow { s with hw := { s.hw with tdr := some x }, main := .blocking false y ys } [] = flow s [] ++ [x] := by
          simp [flow, waiting, hisr, htdr]
        refine ⟨[], h.rep, ?_, ?_, ?_, ⟨rfl, by simp⟩, fun h0 => absurd rfl h0⟩
        · rw [hf]; exact h.sub.append (List.Sublist.refl _)
        · rw [hf]; have := h.len; simp [accepteds, dropsTx]; omega
        · simp [IsrTx, hisr]
  | finish b loop =>
    have hlive : ∀ {m : Main α}, l ≠ [] → s.hw.txeie = true ∨ m.awake = true := live_of h (by rw [hmain]; rfl)
    rw [hmain] at hs hm
    cases b with
    | false =>
      simp only at hs
      split at hs
      · rename_i hn
        simp only [Option.some.injEq, Prod.mk.injEq] at hs
        obtain ⟨rfl, rfl⟩ := hs
        exact TxGoal.quiet (h.mainFrame rfl rfl rfl rfl rfl ((isEmpty_iff h.rep).1 hn) hlive) rfl rfl
      · split at hs <;> simp only [Option.some.injEq, Prod.mk.injEq] at hs <;> obtain ⟨rfl, rfl⟩ := hs
        · exact TxGoal.quiet h rfl rfl
        · exact TxGoal.quiet (h.mainFrame rfl rfl rfl rfl rfl trivial hlive) rfl rfl
    | true =>
      simp only at hs
      split at hs
      · simp only [Option.some.injEq, Prod.mk.injEq] at hs
        obtain ⟨rfl, rfl⟩ := hs
        exact TxGoal.quiet (h.mainFrame rfl rfl rfl rfl rfl trivial hlive) rfl rfl
      · split at hs <;> simp only [Option.some.injEq, Prod.mk.injEq] at hs <;> obtain ⟨rfl, rfl⟩ := hs
        · exact TxGoal.quiet (h.mainFrame rfl rfl rfl rfl rfl trivial hlive) rfl rfl
        · exact TxGoal.quiet (h.mainFrame rfl rfl rfl rfl rfl trivial hlive) rfl rfl
  | discardRead =>
    have hlive : ∀ {m : Main α}, l ≠ [] → s.hw.txeie = true ∨ m.awake = true := live_of h (by rw [hmain]; rfl)
    rw [hmain] at hs hm; simp only [Option.some.injEq, Prod.mk.injEq] at hs
    obtain ⟨rfl, rfl⟩ := hs
    exact TxGoal.quiet (h.mainFrame rfl rfl rfl rfl rfl hm hlive) rfl rfl
  | discardWrite =>
    rw [hmain] at hs hm; simp only [Option.some.injEq, Prod.mk.injEq] at hs
    obtain ⟨rfl, rfl⟩ := hs
    exact TxGoal.quiet (h.mainFrame rfl rfl rfl rfl rfl ⟨hm.1, hm.2, rfl, hisr⟩ (fun _ => Or.inr rfl)) rfl rfl
  | discardLoop c =>
    rw [hmain] at hs hm; simp only at hs
    split at hs <;> simp only [Option.some.injEq, Prod.mk.injEq] at hs <;> obtain ⟨rfl, rfl⟩ := hs
    · rename_i hn
      exact TxGoal.quiet (h.mainFrame rfl rfl rfl rfl rfl trivial (fun h0 => absurd ((isEmpty_iff h.rep).1 hn) h0)) rfl rfl
    · rename_i hn
      exact TxGoal.quiet (h.mainFrame rfl rfl rfl rfl rfl ⟨hm, fun h0 => hn ((isEmpty_iff h.rep).2 h0)⟩ (fun _ => Or.inr rfl)) rfl rfl
  | discardPop c =>
    rw [hmain] at hs hm; simp only [Option.some.injEq, Prod.mk.injEq] at hs
    obtain ⟨rfl, rfl⟩ := hs
    exact TxGoal.quiet (h.mainFrame rfl rfl rfl rfl rfl ⟨hm.1, hm.2, rfl⟩ (fun _ => Or.inr rfl)) rfl rfl
  | discardStore c t =>
    rw [hmain] at hs hm; simp only [Option.some.injEq, Prod.mk.injEq] at hs
    obtain ⟨rfl, rfl⟩ := hs
    obtain ⟨hq, hl, rfl⟩ := hm
    cases l with
    | nil => exact absurd rfl hl
    | cons a l =>
      have h1 := h.sub
      have h2 := h.len
      simp only [flow, waiting, hisr, Isr.popping] at h1 h2
      refine ⟨l, rep_pop h.rep, ?_, ?_, ?_, hq, fun _ => Or.inr rfl⟩
      · simp only [flow, waiting, hisr, Isr.popping, accepteds, List.append_nil]
        refine List.Sublist.trans ?_ h1
        refine (List.Sublist.refl _).append ((List.Sublist.refl _).append ((List.Sublist.refl _).append ?_))
        simp
      · simp [flow, waiting, hisr, Isr.popping, accepteds, dropsTx] at h2 ⊢; omega
      · simp [IsrTx, hisr]
  | read n got =>
    have hlive : ∀ {m : Main α}, l ≠ [] → s.hw.txeie = true ∨ m.awake = true := live_of h (by rw [hmain]; rfl)
    rw [hmain] at hs; simp only at hs
    repeat' split at hs
    all_goals
      simp only [Option.some.injEq, Prod.mk.injEq] at hs
      obtain ⟨rfl, rfl⟩ := hs
      exact TxGoal.quiet (h.mainFrame rfl rfl rfl rfl rfl trivial hlive) rfl rfl
  | readGet n got =>
    have hlive : ∀ {m : Main α}, l ≠ [] → s.hw.txeie = true ∨ m.awake = true := live_of h (by rw [hmain]; rfl)
    rw [hmain] at hs; simp only at hs
    split at hs
    · simp at hs
    · simp only [Option.some.injEq, Prod.mk.injEq] at hs
      obtain ⟨rfl, rfl⟩ := hs
      exact TxGoal.quiet (h.mainFrame rfl rfl rfl rfl rfl trivial hlive) rfl rfl
  | readDirect =>
    have hlive : ∀ {m : Main α}, l ≠ [] → s.hw.txeie = true ∨ m.awake = true := live_of h (by rw [hmain]; rfl)
    rw [hmain] at hs; simp only at hs
    split at hs <;> simp only [Option.some.injEq, Prod.mk.injEq] at hs <;> obtain ⟨rfl, rfl⟩ := hs
    all_goals exact TxGoal.quiet (h.mainFrame rfl rfl rfl rfl rfl trivial hlive) rfl rfl
  | dropLoop c =>
    have hlive : ∀ {m : Main α}, l ≠ [] → s.hw.txeie = true ∨ m.awake = true := live_of h (by rw [hmain]; rfl)
    rw [hmain] at hs; simp only at hs
    repeat' split at hs
    all_goals
      simp only [Option.some.injEq, Prod.mk.injEq] at hs
      obtain ⟨rfl, rfl⟩ := hs
      exact TxGoal.quiet (h.mainFrame rfl rfl rfl rfl rfl trivial hlive) rfl rfl
  | txSize hd =>
    have hlive : ∀ {m : Main α}, l ≠ [] → s.hw.txeie = true ∨ m.awake = true := live_of h (by rw [hmain]; rfl)
    rw [hmain] at hs
    cases hd <;> simp only [Option.some.injEq, Prod.mk.injEq] at hs <;> obtain ⟨rfl, rfl⟩ := hs
    · exact TxGoal.quiet (h.mainFrame rfl rfl rfl rfl rfl rfl hlive) rfl rfl
    · exact TxGoal.quiet (h.mainFrame rfl rfl rfl rfl rfl trivial hlive) rfl rfl
  | rxSize hd =>
    have hlive : ∀ {m : Main α}, l ≠ [] → s.hw.txeie = true ∨ m.awake = true := live_of h (by rw [hmain]; rfl)
    rw [hmain] at hs
    cases hd <;> simp only at hs
    · split at hs <;> simp only [Option.some.injEq, Prod.mk.injEq] at hs <;> obtain ⟨rfl, rfl⟩ := hs
      all_goals exact TxGoal.quiet (h.mainFrame rfl rfl rfl rfl rfl trivial hlive) rfl rfl
    · simp only [Option.some.injEq, Prod.mk.injEq] at hs
      obtain ⟨rfl, rfl⟩ := hs
      exact TxGoal.quiet (h.mainFrame rfl rfl rfl rfl rfl trivial hlive) rfl rfl
  | clear b =>
    have hlive : ∀ {m : Main α}, l ≠ [] → s.hw.txeie = true ∨ m.awake = true := live_of h (by rw [hmain]; rfl)
    rw [hmain] at hs
    cases b <;> simp only at hs
    · split at hs <;> simp only [Option.some.injEq, Prod.mk.injEq] at hs <;> obtain ⟨rfl, rfl⟩ := hs
      all_goals exact TxGoal.quiet (h.mainFrame rfl rfl rfl rfl rfl trivial hlive) rfl rfl
    · simp only [Option.some.injEq, Prod.mk.injEq] at hs
      obtain ⟨rfl, rfl⟩ := hs
      have := eatenBy_tx s.hw [.done .cleared]
      exact TxGoal.quiet (h.mainFrame rfl rfl rfl rfl rfl trivial hlive) this.1 this.2
  | _ =>
    have hlive : ∀ {m : Main α}, l ≠ [] → s.hw.txeie = true ∨ m.awake = true := live_of h (by rw [hmain]; rfl)
    rw [hmain] at hs; simp only [Option.some.injEq, Prod.mk.injEq] at hs
    obtain ⟨rfl, rfl⟩ := hs
    exact TxGoal.quiet (h.mainFrame rfl rfl rfl rfl rfl trivial hlive) rfl rfl

/-- A step of the hardware. -/
theorem TxInv.hwFrame {cfg : Config} {s : State α} {l acc : List α} {d : Nat} (h : TxInv cfg s l acc d) (hw : Hw α)
    (htdr : s.hw.tdr = none → hw.tdr = none) (hf : flow { s with hw := hw } l = flow s l) (hie : hw.txeie = s.hw.txeie) :
    TxInv cfg { s with hw := hw } l acc d where
  rep := h.rep
  sub := by rw [hf]; exact h.sub
  len := by rw [hf]; exact h.len
  isr := by
    have := h.isr; unfold IsrTx at *; dsimp only
    cases hi : s.isr <;> rw [hi] at this <;> first | trivial | exact htdr this | exact ⟨htdr this.1, this.2⟩ | exact this
  main := h.main.frame rfl rfl rfl (fun h0 => ⟨h0, htdr⟩) (Nat.le_refl _)
    (fun hq => ⟨⟨hq.1, hq.2.1, hie.trans hq.2.2.1, hq.2.2.2⟩, rfl, rfl⟩)
  live := fun h0 => by dsimp only; rw [hie]; exact h.live h0

theorem step_tx {cfg : Config} {s s' : State α} {l acc : List α} {d : Nat} {e : List (Ev α)} (h : TxInv cfg s l acc d)
    (a : Act α) (ok : TxOk cfg s a) (hs : step cfg s a = some (s', e)) : TxGoal cfg acc d s' e := by
  cases a with
  | call c =>
    simp only [step] at hs
    split at hs
    · rename_i hmain hisr
      simp only [Option.some.injEq, Prod.mk.injEq] at hs
      obtain ⟨rfl, rfl⟩ := hs
      refine TxGoal.quiet (h.mainFrame rfl rfl rfl rfl rfl ?_ (live_of h (by rw [hmain]; rfl))) rfl rfl
      unfold MainTx; dsimp only
      cases c with
      | writeBlocking x rest => exact ⟨(isEmpty_iff h.rep).1 ok, by simp⟩
      | discardTransmitBuffer => exact ok
      | _ => trivial
    · simp only [Option.some.injEq, Prod.mk.injEq] at hs
      obtain ⟨rfl, rfl⟩ := hs
      exact TxGoal.quiet h rfl rfl
  | main =>
    simp only [step] at hs
    split at hs
    · rename_i hisr; exact main_tx h hisr hs
    · simp only [Option.some.injEq, Prod.mk.injEq] at hs
      obtain ⟨rfl, rfl⟩ := hs
      exact TxGoal.quiet h rfl rfl
  | interrupt =>
    simp only [step] at hs
    split at hs
    · rename_i hisr
      split at hs
      · rename_i hp
        simp only [Option.some.injEq, Prod.mk.injEq] at hs
        obtain ⟨rfl, rfl⟩ := hs
        have hpop : (if cfg.rxSize = 0 then (.txCheck : Isr α) else .rxCheck).popping = s.isr.popping := by
          rw [hisr]; split <;> rfl
        refine TxGoal.quiet (l := l) ⟨h.rep, ?_, ?_, ?_, ?_, h.live⟩ rfl rfl
        · have := h.sub; unfold flow waiting at *; dsimp only; rw [hpop]; exact this
        · have := h.len; unfold flow waiting at *; dsimp only; rw [hpop]; exact this
        · unfold IsrTx; dsimp only; by_cases h0 : cfg.rxSize = 0 <;> simp [h0]
        · refine h.main.frame rfl rfl rfl (fun h0 => ⟨h0, fun h => h⟩) (Nat.le_refl _) ?_
          intro hq
          simp [pending, hq.1, hq.2.1, hq.2.2.1] at hp
      · simp only [Option.some.injEq, Prod.mk.injEq] at hs
        obtain ⟨rfl, rfl⟩ := hs
        exact TxGoal.quiet h rfl rfl
    · simp only [Option.some.injEq, Prod.mk.injEq] at hs
      obtain ⟨rfl, rfl⟩ := hs
      exact TxGoal.quiet h rfl rfl
  | isr => exact isr_tx h hs
  | load =>
    simp only [step] at hs
    split at hs <;> simp only [Option.some.injEq, Prod.mk.injEq] at hs <;> obtain ⟨rfl, rfl⟩ := hs
    · rename_i x h1 h2
      exact TxGoal.quiet (h.hwFrame _ (fun _ => rfl) (by simp [flow, waiting, h1, h2]) rfl) rfl rfl
    · exact TxGoal.quiet h rfl rfl
  | sent =>
    simp only [step] at hs
    split at hs <;> simp only [Option.some.injEq, Prod.mk.injEq] at hs <;> obtain ⟨rfl, rfl⟩ := hs
    · rename_i x h1
      exact TxGoal.quiet (h.hwFrame _ (fun h => h) (by simp [flow, waiting, h1]) rfl) rfl rfl
    · exact TxGoal.quiet h rfl rfl
  | arrive x =>
    simp only [step] at hs
    split at hs <;> simp only [Option.some.injEq, Prod.mk.injEq] at hs <;> obtain ⟨rfl, rfl⟩ := hs
    · exact TxGoal.quiet (h.hwFrame _ (fun h => h) rfl rfl) rfl rfl
    · exact TxGoal.quiet (h.hwFrame _ (fun h => h) rfl rfl) rfl rfl

end Modm.Uart
