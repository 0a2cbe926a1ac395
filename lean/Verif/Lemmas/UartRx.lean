import Verif.Lemmas.Uart

set_option autoImplicit false

namespace Modm.Uart

open Modm.AtomicQueue (Q next Rep head_le full_iff empty_iff size_eq rep_init rep_push rep_pop rep_get next_eq wrap)
open Spec.Uart

variable {α : Type}

/-! ### Reception -/

/-- `read` has copied the first byte but not yet removed it. -/
def Main.popping : Main α → Bool
  | .readPop _ _ => true
  | .readStore _ _ _ => true
  | _ => false

/-- The byte in the handler. -/
def Isr.byte : Isr α → List α
  | .rxPush x => [x]
  | _ => []

/-- What has been received and not been taken. -/
def stock (s : State α) (l : List α) : List α :=
  (if s.main.popping then l.tail else l) ++ (s.isr.byte ++ s.hw.rdr.toList)

def MainRx (cfg : Config) (s : State α) (l : List α) : Prop :=
  match s.main with
  | .readGet _ _ => cfg.rxSize ≠ 0 ∧ l ≠ []
  | .readPop _ _ => l ≠ []
  | .readStore _ _ t => l ≠ [] ∧ t = next cfg.rxSize s.rx.tail
  | .dropPop _ => l ≠ []
  | .dropStore _ t => l ≠ [] ∧ t = next cfg.rxSize s.rx.tail
  | .readDirect => cfg.rxSize = 0 ∧ (cfg.extended = true → s.hw.rdr ≠ none)
  | .clear true => cfg.extended = false
  | .rxSize (some h) => cfg.rxSize ≠ 0 ∧ ∃ j, j ≤ l.length ∧ h = wrap (cfg.rxSize + 1) (s.rx.tail + j)
  | _ => True

def IsrRx (cfg : Config) (s : State α) : Prop :=
  match s.isr with
  | .rxCheck => cfg.rxSize ≠ 0
  | .rxRead => cfg.rxSize ≠ 0 ∧ s.hw.rdr ≠ none
  | .rxPush _ => cfg.rxSize ≠ 0
  | .ackRead => cfg.extended = false
  | _ => True

structure RxInv (cfg : Config) (s : State α) (l t arr : List α) (n : Nat) : Prop where
  rep : Rep cfg.rxSize s.rx l
  sub : (t ++ stock s l).Sublist arr
  len : (t ++ stock s l).length + n = arr.length
  isr : IsrRx cfg s
  main : MainRx cfg s l

/-- The number of bytes taken in a step is that of the bytes read and discarded. -/
def RxGoal (cfg : Config) (t arr : List α) (n : Nat) (s' : State α) (e : List (Ev α)) : Prop :=
  ∃ l u, RxInv cfg s' l (t ++ u) (arr ++ arrivals e) (n + (overflows e).length + (eatens e).length) ∧
    (gots e).Sublist u ∧ u.length = (gots e).length + dropsRx e

theorem RxGoal.quiet {cfg : Config} {s' : State α} {l t arr : List α} {n : Nat} {e : List (Ev α)} (h : RxInv cfg s' l t arr n)
    (h1 : arrivals e = []) (h2 : overflows e = []) (h3 : eatens e = []) (h4 : gots e = []) (h5 : dropsRx e = 0) :
    RxGoal cfg t arr n s' e := by
  refine ⟨l, [], ?_, ?_, ?_⟩
  · rw [h1, h2, h3]; simpa using h
  · rw [h4]; exact List.Sublist.refl _
  · rw [h4, h5]; rfl

theorem MainRx.frame {cfg : Config} {s s' : State α} {l l' : List α} (h : MainRx cfg s l) (hm : s'.main = s.main)
    (ht : s'.rx.tail = s.rx.tail) (hl : l.length ≤ l'.length)
    (hr : cfg.rxSize = 0 → cfg.extended = true → s.hw.rdr ≠ none → s'.hw.rdr ≠ none) : MainRx cfg s' l' := by
  have hne : l ≠ [] → l' ≠ [] := by
    intro h0 h1; subst h1; simp at hl; exact h0 hl
  unfold MainRx at *
  rw [hm]
  cases hmain : s.main with
  | readGet => rw [hmain] at h; exact ⟨h.1, hne h.2⟩
  | readPop => rw [hmain] at h; exact hne h
  | readStore => rw [hmain] at h; exact ⟨hne h.1, by rw [ht]; exact h.2⟩
  | dropPop => rw [hmain] at h; exact hne h
  | dropStore => rw [hmain] at h; exact ⟨hne h.1, by rw [ht]; exact h.2⟩
  | readDirect => rw [hmain] at h; exact ⟨h.1, fun he => hr h.1 he (h.2 he)⟩
  | clear b =>
    rw [hmain] at h
    cases b with
    | true => exact h
    | false => trivial
  | rxSize o =>
    rw [hmain] at h
    cases o with
    | none => trivial
    | some hd =>
      obtain ⟨h0, j, hj, e⟩ := h
      exact ⟨h0, j, Nat.le_trans hj hl, by rw [ht]; exact e⟩
  | _ => trivial

/-- A step of the handler or the hardware which does not touch the receiver. -/
theorem RxInv.isrFrame {cfg : Config} {s s' : State α} {l t arr : List α} {n : Nat} (h : RxInv cfg s l t arr n)
    (hm : s'.main = s.main) (hrx : s'.rx = s.rx) (hrdr : s'.hw.rdr = s.hw.rdr) (hb : s'.isr.byte = s.isr.byte)
    (hi : IsrRx cfg s') : RxInv cfg s' l t arr n where
  rep := by rw [hrx]; exact h.rep
  sub := by have := h.sub; unfold stock at *; rw [hm, hb, hrdr]; exact this
  len := by have := h.len; unfold stock at *; rw [hm, hb, hrdr]; exact this
  isr := hi
  main := h.main.frame hm (by rw [hrx]) (Nat.le_refl _) (fun _ _ h => by rw [hrdr]; exact h)

theorem isr_rx {cfg : Config} {s s' : State α} {l t arr : List α} {n : Nat} {e : List (Ev α)} (h : RxInv cfg s l t arr n)
    (hs : isrStep cfg s = some (s', e)) : RxGoal cfg t arr n s' e := by
  have hi := h.isr
  unfold IsrRx at hi
  unfold isrStep at hs
  cases hisr : s.isr with
  | none =>
    rw [hisr] at hs; simp only [Option.some.injEq, Prod.mk.injEq] at hs
    obtain ⟨rfl, rfl⟩ := hs
    exact RxGoal.quiet h rfl rfl rfl rfl rfl
  | rxCheck =>
    rw [hisr] at hs hi; simp only [Option.some.injEq, Prod.mk.injEq] at hs
    obtain ⟨rfl, rfl⟩ := hs
    refine RxGoal.quiet (h.isrFrame rfl rfl rfl ?_ ?_) rfl rfl rfl rfl rfl
    · rw [hisr]; dsimp only; split <;> rfl
    · unfold IsrRx; dsimp only
      cases hr : s.hw.rdr
      · trivial
      · exact ⟨hi, by simp⟩
  | rxRead =>
    rw [hisr] at hs hi; simp only at hs
    split at hs <;> simp only [Option.some.injEq, Prod.mk.injEq] at hs <;> obtain ⟨rfl, rfl⟩ := hs
    · rename_i x hx
      have hst : stock { s with isr := .rxPush x, hw := { s.hw with rdr := none, ore := s.hw.ore && cfg.extended } } l = stock s l := by
        simp [stock, hisr, Isr.byte, hx]
      refine RxGoal.quiet (l := l) ⟨h.rep, by rw [hst]; exact h.sub, by rw [hst]; exact h.len, hi.1, ?_⟩ rfl rfl rfl rfl rfl
      exact h.main.frame rfl rfl (Nat.le_refl _) (fun h0 => absurd h0 hi.1)
    · rename_i hx; exact absurd hx hi.2
  | rxPush x =>
    rw [hisr] at hs hi; simp only at hs
    obtain ⟨q, hq, hr⟩ := rep_push h.rep x
    rw [hq] at hs
    simp only [Option.some.injEq, Prod.mk.injEq] at hs
    have htail : q.tail = s.rx.tail := by
      unfold AtomicQueue.push at hq; dsimp only at hq
      repeat' split at hq
      all_goals simp at hq
      all_goals rw [← hq.1]
    obtain ⟨rfl, rfl⟩ := hs
    have h1 := h.sub; have h2 := h.len
    have hne : s.main.popping = true → l ≠ [] := by
      have := h.main; unfold MainRx at this
      cases hmain : s.main <;> rw [hmain] at this <;> simp [Main.popping]
      · exact this
      · exact this.1
    by_cases hl : l.length < cfg.rxSize
    · rw [if_pos hl] at hr
      have hst : stock { s with rx := q, isr := .txCheck } (l ++ [x]) = stock s l := by
        unfold stock; dsimp only; rw [hisr]
        cases hp : s.main.popping
        · simp [Isr.byte]
        · have := hne hp
          cases l with
          | nil => exact absurd rfl this
          | cons => simp [Isr.byte]
      simp only [hl, decide_true, if_true]
      refine RxGoal.quiet (l := l ++ [x]) ⟨hr, by rw [hst]; exact h.sub, by rw [hst]; exact h.len, trivial, ?_⟩ rfl rfl rfl rfl rfl
      exact h.main.frame rfl htail (by simp) (fun h0 => absurd h0 hi)
    · rw [if_neg hl] at hr
      simp only [hl, decide_false, Bool.false_eq_true, if_false]
      unfold stock at h1 h2
      rw [hisr] at h1 h2
      refine ⟨l, [], ⟨hr, ?_, ?_, trivial, ?_⟩, by simp [gots], by simp [gots, dropsRx]⟩
      · simp only [stock, Isr.byte, arrivals, List.append_nil, List.nil_append]
        refine List.Sublist.trans ?_ h1
        refine (List.Sublist.refl _).append ((List.Sublist.refl _).append ?_)
        simp [Isr.byte]
      · simp only [stock, Isr.byte, arrivals, List.append_nil, List.nil_append, overflows, eatens, List.length_append,
          List.length_cons, List.length_nil] at h2 ⊢
        omega
      · exact h.main.frame rfl htail (Nat.le_refl _) (fun h0 => absurd h0 hi)
  | txCheck =>
    rw [hisr] at hs; simp only [Option.some.injEq, Prod.mk.injEq] at hs
    obtain ⟨rfl, rfl⟩ := hs
    refine RxGoal.quiet (h.isrFrame rfl rfl rfl ?_ ?_) rfl rfl rfl rfl rfl
    · rw [hisr]; dsimp only; split <;> rfl
    · unfold IsrRx; dsimp only; cases s.hw.tdr <;> trivial
  | txEmpty =>
    rw [hisr] at hs; simp only [Option.some.injEq, Prod.mk.injEq] at hs
    obtain ⟨rfl, rfl⟩ := hs
    refine RxGoal.quiet (h.isrFrame rfl rfl rfl ?_ ?_) rfl rfl rfl rfl rfl
    · rw [hisr]; dsimp only; split <;> rfl
    · unfold IsrRx; dsimp only; cases AtomicQueue.isEmpty s.tx <;> trivial
  | txDisable =>
    rw [hisr] at hs; simp only [Option.some.injEq, Prod.mk.injEq] at hs
    obtain ⟨rfl, rfl⟩ := hs
    exact RxGoal.quiet (h.isrFrame rfl rfl rfl (by rw [hisr]; rfl) trivial) rfl rfl rfl rfl rfl
  | txWrite =>
    rw [hisr] at hs; simp only at hs
    split at hs
    · simp at hs
    · simp only [Option.some.injEq, Prod.mk.injEq] at hs
      obtain ⟨rfl, rfl⟩ := hs
      exact RxGoal.quiet (h.isrFrame rfl rfl rfl (by rw [hisr]; rfl) trivial) rfl rfl rfl rfl rfl
  | txPop =>
    rw [hisr] at hs; simp only [Option.some.injEq, Prod.mk.injEq] at hs
    obtain ⟨rfl, rfl⟩ := hs
    exact RxGoal.quiet (h.isrFrame rfl rfl rfl (by rw [hisr]; rfl) trivial) rfl rfl rfl rfl rfl
  | ack =>
    rw [hisr] at hs; simp only at hs
    split at hs <;> rename_i hx <;> simp only [Option.some.injEq, Prod.mk.injEq] at hs <;> obtain ⟨rfl, rfl⟩ := hs
    · exact RxGoal.quiet (h.isrFrame rfl rfl rfl (by rw [hisr]; rfl) trivial) rfl rfl rfl rfl rfl
    · exact RxGoal.quiet (h.isrFrame rfl rfl rfl (by rw [hisr]; rfl) (by show cfg.extended = false; simpa using hx)) rfl rfl rfl rfl rfl
  | ackRead =>
    rw [hisr] at hs hi; simp only [Option.some.injEq, Prod.mk.injEq] at hs
    obtain ⟨rfl, rfl⟩ := hs
    have h1 := h.sub; have h2 := h.len
    unfold stock at h1 h2
    rw [hisr] at h1 h2
    refine ⟨l, [], ⟨h.rep, ?_, ?_, trivial, ?_⟩, ?_, ?_⟩
    · have : arrivals (eatenBy s.hw) = [] := by unfold eatenBy; cases s.hw.rdr <;> rfl
      rw [this]
      simp only [stock, List.append_nil]
      refine List.Sublist.trans ?_ h1
      refine (List.Sublist.refl _).append ((List.Sublist.refl _).append ?_)
      simp [Isr.byte]
    · unfold eatenBy
      cases hr : s.hw.rdr <;> simp [stock, Isr.byte, arrivals, overflows, eatens, hr] at h2 ⊢ <;> omega
    · exact h.main.frame rfl rfl (Nat.le_refl _) (fun _ hx => by rw [hi] at hx; cases hx)
    · unfold eatenBy; cases s.hw.rdr <;> simp [gots]
    · unfold eatenBy; cases s.hw.rdr <;> simp [gots, dropsRx]

/-- A step of the main program which does not touch the receiver. -/
theorem RxInv.mainFrame {cfg : Config} {s s' : State α} {l t arr : List α} {n : Nat} (h : RxInv cfg s l t arr n)
    (hisr : s'.isr = s.isr) (hrx : s'.rx = s.rx) (hrdr : s'.hw.rdr = s.hw.rdr) (hp : s'.main.popping = s.main.popping)
    (hm : MainRx cfg s' l) : RxInv cfg s' l t arr n where
  rep := by rw [hrx]; exact h.rep
  sub := by have := h.sub; unfold stock at *; rw [hp, hisr, hrdr]; exact this
  len := by have := h.len; unfold stock at *; rw [hp, hisr, hrdr]; exact this
  isr := by have := h.isr; unfold IsrRx at *; rw [hisr, hrdr]; exact this
  main := hm

theorem nextByte_rx (cfg : Config) (s : State α) (l : List α) (rest : List α) (i : Nat) (h : s.main = (nextByte rest i).1) :
    MainRx cfg s l ∧ s.main.popping = false ∧ arrivals (nextByte rest i).2 = [] ∧ overflows (nextByte rest i).2 = [] ∧
      eatens (nextByte rest i).2 = [] ∧ gots (nextByte rest i).2 = [] ∧ dropsRx (nextByte rest i).2 = 0 := by
  unfold MainRx
  rw [h]
  cases rest <;> exact ⟨trivial, rfl, rfl, rfl, rfl, rfl, rfl⟩

theorem write_rx {cfg : Config} {s s' : State α} {l t arr : List α} {n : Nat} {e : List (Ev α)} (h : RxInv cfg s l t arr n)
    {k : WriteAt} {x : α} {rest : List α} {i : Nat} (hmain : s.main = .write k x rest i)
    (hs : writeStep cfg s k x rest i = some (s', e)) : RxGoal cfg t arr n s' e := by
  have hp : s.main.popping = false := by rw [hmain]; rfl
  unfold writeStep at hs
  cases k with
  | direct =>
    simp only [Option.some.injEq, Prod.mk.injEq] at hs
    obtain ⟨rfl, rfl⟩ := hs
    have hn := nextByte_rx cfg { s with hw := { s.hw with tdr := some x }, main := (nextByte rest (i + 1)).1 } l rest (i + 1) rfl
    exact RxGoal.quiet (h.mainFrame rfl rfl rfl (hn.2.1.trans hp.symm) hn.1) hn.2.2.1 hn.2.2.2.1 hn.2.2.2.2.1 hn.2.2.2.2.2.1 hn.2.2.2.2.2.2
  | enable =>
    simp only [Option.some.injEq, Prod.mk.injEq] at hs
    obtain ⟨rfl, rfl⟩ := hs
    have hn := nextByte_rx cfg { s with hw := { s.hw with txeie := true }, main := (nextByte rest (i + 1)).1 } l rest (i + 1) rfl
    exact RxGoal.quiet (h.mainFrame rfl rfl rfl (hn.2.1.trans hp.symm) hn.1) hn.2.2.1 hn.2.2.2.1 hn.2.2.2.2.1 hn.2.2.2.2.2.1 hn.2.2.2.2.2.2
  | full | store =>
    simp only at hs
    split at hs <;> simp only [Option.some.injEq, Prod.mk.injEq, reduceCtorEq] at hs <;> obtain ⟨rfl, rfl⟩ := hs
    all_goals exact RxGoal.quiet (h.mainFrame rfl rfl rfl hp.symm trivial) rfl rfl rfl rfl rfl
  | _ =>
    simp only [Option.some.injEq, Prod.mk.injEq] at hs
    obtain ⟨rfl, rfl⟩ := hs
    exact RxGoal.quiet (h.mainFrame rfl rfl rfl hp.symm trivial) rfl rfl rfl rfl rfl

theorem main_rx {cfg : Config} {s s' : State α} {l t arr : List α} {n : Nat} {e : List (Ev α)} (h : RxInv cfg s l t arr n)
    (hisr : s.isr = .none) (hs : mainStep cfg s = some (s', e)) : RxGoal cfg t arr n s' e := by
  have hm := h.main
  unfold MainRx at hm
  unfold mainStep at hs
  cases hmain : s.main with
  | idle =>
    rw [hmain] at hs; simp only [Option.some.injEq, Prod.mk.injEq] at hs
    obtain ⟨rfl, rfl⟩ := hs
    exact RxGoal.quiet h rfl rfl rfl rfl rfl
  | write k x rest i => rw [hmain] at hs; exact write_rx h hmain hs
  | blocking b x rest =>
    have hp : s.main.popping = false := by rw [hmain]; rfl
    rw [hmain] at hs
    cases b <;> simp only [Option.some.injEq, Prod.mk.injEq] at hs
    · obtain ⟨rfl, rfl⟩ := hs
      exact RxGoal.quiet (h.mainFrame rfl rfl rfl hp.symm trivial) rfl rfl rfl rfl rfl
    · cases rest <;> obtain ⟨rfl, rfl⟩ := hs
      all_goals exact RxGoal.quiet (h.mainFrame rfl rfl rfl hp.symm trivial) rfl rfl rfl rfl rfl
  | finish b loop =>
    have hp : s.main.popping = false := by rw [hmain]; rfl
    rw [hmain] at hs
    cases b <;> simp only at hs
    all_goals
      repeat' split at hs
      all_goals
        simp only [Option.some.injEq, Prod.mk.injEq] at hs
        obtain ⟨rfl, rfl⟩ := hs
        first
        | exact RxGoal.quiet h rfl rfl rfl rfl rfl
        | exact RxGoal.quiet (h.mainFrame rfl rfl rfl hp.symm trivial) rfl rfl rfl rfl rfl
  | discardLoop c =>
    have hp : s.main.popping = false := by rw [hmain]; rfl
    rw [hmain] at hs; simp only at hs
    split at hs <;> simp only [Option.some.injEq, Prod.mk.injEq] at hs <;> obtain ⟨rfl, rfl⟩ := hs
    all_goals exact RxGoal.quiet (h.mainFrame rfl rfl rfl hp.symm trivial) rfl rfl rfl rfl rfl
  | read k got =>
    have hp : s.main.popping = false := by rw [hmain]; rfl
    rw [hmain] at hs; simp only at hs
    split at hs
    · rename_i h0
      split at hs <;> rename_i hr <;> simp only [Option.some.injEq, Prod.mk.injEq] at hs <;> obtain ⟨rfl, rfl⟩ := hs
      · exact RxGoal.quiet (h.mainFrame rfl rfl rfl hp.symm ⟨h0, fun _ h1 => by dsimp only at h1; rw [h1] at hr; simp at hr⟩) rfl rfl rfl rfl rfl
      · exact RxGoal.quiet (h.mainFrame rfl rfl rfl hp.symm trivial) rfl rfl rfl rfl rfl
    · rename_i h0
      split at hs
      · simp only [Option.some.injEq, Prod.mk.injEq] at hs
        obtain ⟨rfl, rfl⟩ := hs
        exact RxGoal.quiet (h.mainFrame rfl rfl rfl hp.symm trivial) rfl rfl rfl rfl rfl
      · split at hs <;> rename_i hn <;> simp only [Option.some.injEq, Prod.mk.injEq] at hs <;> obtain ⟨rfl, rfl⟩ := hs
        · exact RxGoal.quiet (h.mainFrame rfl rfl rfl hp.symm trivial) rfl rfl rfl rfl rfl
        · exact RxGoal.quiet (h.mainFrame rfl rfl rfl hp.symm ⟨h0, fun h1 => hn ((isEmpty_iff h.rep).2 h1)⟩) rfl rfl rfl rfl rfl
  | readGet k got =>
    rw [hmain] at hs hm; simp only at hs
    have h1 := h.sub; have h2 := h.len
    simp only [stock, hmain, hisr, Main.popping, Isr.byte] at h1 h2
    cases l with
    | nil => exact absurd rfl hm.2
    | cons a l =>
      rw [rep_get h.rep] at hs
      simp only [Option.some.injEq, Prod.mk.injEq] at hs
      obtain ⟨rfl, rfl⟩ := hs
      refine ⟨a :: l, [a], ⟨h.rep, ?_, ?_, ?_, by simp [MainRx]⟩, by simp [gots], by simp [gots, dropsRx]⟩
      · simp only [stock, hisr, Main.popping, Isr.byte, arrivals]; simpa using h1
      · simp [stock, hisr, Main.popping, Isr.byte, arrivals, overflows, eatens] at h2 ⊢; omega
      · simp [IsrRx, hisr]
  | readPop k got =>
    have hp : s.main.popping = true := by rw [hmain]; rfl
    rw [hmain] at hs hm; simp only [Option.some.injEq, Prod.mk.injEq] at hs
    obtain ⟨rfl, rfl⟩ := hs
    exact RxGoal.quiet (h.mainFrame rfl rfl rfl hp.symm ⟨hm, rfl⟩) rfl rfl rfl rfl rfl
  | readStore k got t' =>
    rw [hmain] at hs hm; simp only [Option.some.injEq, Prod.mk.injEq] at hs
    obtain ⟨rfl, rfl⟩ := hs
    obtain ⟨hl, rfl⟩ := hm
    have h1 := h.sub; have h2 := h.len
    simp only [stock, hmain, hisr, Main.popping, Isr.byte] at h1 h2
    cases l with
    | nil => exact absurd rfl hl
    | cons a l =>
      refine RxGoal.quiet (l := l) ⟨rep_pop h.rep, ?_, ?_, ?_, trivial⟩ rfl rfl rfl rfl rfl
      · simp only [stock, hisr, Main.popping, Isr.byte]; simpa using h1
      · simp [stock, hisr, Main.popping, Isr.byte] at h2 ⊢; omega
      · simp [IsrRx, hisr]
  | readDirect =>
    rw [hmain] at hs hm; simp only at hs
    have h1 := h.sub; have h2 := h.len
    simp only [stock, hmain, hisr, Main.popping, Isr.byte] at h1 h2
    have hl : l = [] := by
      have := h.rep.sz; rw [hm.1] at this; simpa using this
    subst hl
    split at hs <;> rename_i hr <;> simp only [Option.some.injEq, Prod.mk.injEq] at hs <;> obtain ⟨rfl, rfl⟩ := hs
    · rename_i x
      refine ⟨[], [x], ⟨h.rep, ?_, ?_, ?_, trivial⟩, by simp [gots, readDone], by simp [gots, dropsRx, readDone]⟩
      · simp only [stock, hisr, Main.popping, Isr.byte, arrivals, readDone]; simpa [hr] using h1
      · simp [stock, hisr, Main.popping, Isr.byte, arrivals, overflows, eatens, hr, readDone] at h2 ⊢; omega
      · simp [IsrRx, hisr]
    · exact RxGoal.quiet (h.mainFrame rfl rfl rfl (by rw [hmain]; rfl) trivial) rfl rfl rfl rfl rfl
  | dropLoop c =>
    have hp : s.main.popping = false := by rw [hmain]; rfl
    rw [hmain] at hs; simp only at hs
    split at hs
    · simp only [Option.some.injEq, Prod.mk.injEq] at hs
      obtain ⟨rfl, rfl⟩ := hs
      exact RxGoal.quiet (h.mainFrame rfl rfl rfl hp.symm trivial) rfl rfl rfl rfl rfl
    · split at hs <;> rename_i hn <;> simp only [Option.some.injEq, Prod.mk.injEq] at hs <;> obtain ⟨rfl, rfl⟩ := hs
      · exact RxGoal.quiet (h.mainFrame rfl rfl rfl hp.symm trivial) rfl rfl rfl rfl rfl
      · exact RxGoal.quiet (h.mainFrame rfl rfl rfl hp.symm (fun h1 => hn ((isEmpty_iff h.rep).2 h1))) rfl rfl rfl rfl rfl
  | dropPop c =>
    have hp : s.main.popping = false := by rw [hmain]; rfl
    rw [hmain] at hs hm; simp only [Option.some.injEq, Prod.mk.injEq] at hs
    obtain ⟨rfl, rfl⟩ := hs
    exact RxGoal.quiet (h.mainFrame rfl rfl rfl hp.symm ⟨hm, rfl⟩) rfl rfl rfl rfl rfl
  | dropStore c t' =>
    rw [hmain] at hs hm; simp only [Option.some.injEq, Prod.mk.injEq] at hs
    obtain ⟨rfl, rfl⟩ := hs
    obtain ⟨hl, rfl⟩ := hm
    have h1 := h.sub; have h2 := h.len
    simp only [stock, hmain, hisr, Main.popping, Isr.byte] at h1 h2
    cases l with
    | nil => exact absurd rfl hl
    | cons a l =>
      refine ⟨l, [a], ⟨rep_pop h.rep, ?_, ?_, ?_, trivial⟩, by simp [gots], by simp [gots, dropsRx]⟩
      · simp only [stock, hisr, Main.popping, Isr.byte, arrivals]; simpa using h1
      · simp [stock, hisr, Main.popping, Isr.byte, arrivals, overflows, eatens] at h2 ⊢; omega
      · simp [IsrRx, hisr]
  | txSize hd =>
    have hp : s.main.popping = false := by rw [hmain]; rfl
    rw [hmain] at hs
    cases hd <;> simp only [Option.some.injEq, Prod.mk.injEq] at hs <;> obtain ⟨rfl, rfl⟩ := hs
    all_goals exact RxGoal.quiet (h.mainFrame rfl rfl rfl hp.symm trivial) rfl rfl rfl rfl rfl
  | rxSize hd =>
    have hp : s.main.popping = false := by rw [hmain]; rfl
    rw [hmain] at hs
    cases hd <;> simp only at hs
    · split at hs <;> rename_i h0 <;> simp only [Option.some.injEq, Prod.mk.injEq] at hs <;> obtain ⟨rfl, rfl⟩ := hs
      · exact RxGoal.quiet (h.mainFrame rfl rfl rfl hp.symm trivial) rfl rfl rfl rfl rfl
      · exact RxGoal.quiet (h.mainFrame rfl rfl rfl hp.symm ⟨h0, l.length, Nat.le_refl _, h.rep.hd⟩) rfl rfl rfl rfl rfl
    · simp only [Option.some.injEq, Prod.mk.injEq] at hs
      obtain ⟨rfl, rfl⟩ := hs
      exact RxGoal.quiet (h.mainFrame rfl rfl rfl hp.symm trivial) rfl rfl rfl rfl rfl
  | clear b =>
    have hp : s.main.popping = false := by rw [hmain]; rfl
    have h1 := h.sub; have h2 := h.len
    simp only [stock, hmain, hisr, Main.popping, Isr.byte] at h1 h2
    rw [hmain] at hs
    cases b <;> simp only at hs
    · split at hs <;> rename_i hx <;> simp only [Option.some.injEq, Prod.mk.injEq] at hs <;> obtain ⟨rfl, rfl⟩ := hs
      · exact RxGoal.quiet (h.mainFrame rfl rfl rfl hp.symm trivial) rfl rfl rfl rfl rfl
      · exact RxGoal.quiet (h.mainFrame rfl rfl rfl hp.symm (by show cfg.extended = false; simpa using hx)) rfl rfl rfl rfl rfl
    · simp only [Option.some.injEq, Prod.mk.injEq] at hs
      obtain ⟨rfl, rfl⟩ := hs
      refine ⟨l, [], ⟨h.rep, ?_, ?_, by simp [IsrRx, hisr], trivial⟩, ?_, ?_⟩
      · have : arrivals (eatenBy s.hw ++ [.done .cleared]) = [] := by unfold eatenBy; cases s.hw.rdr <;> rfl
        rw [this]
        simp only [stock, hisr, Main.popping, Isr.byte, List.append_nil]
        refine List.Sublist.trans ?_ h1
        refine (List.Sublist.refl _).append ?_
        simp
      · unfold eatenBy
        cases hr : s.hw.rdr <;> simp [stock, hisr, Main.popping, Isr.byte, arrivals, overflows, eatens, hr] at h2 ⊢ <;> omega
      · unfold eatenBy; cases s.hw.rdr <;> simp [gots]
      · unfold eatenBy; cases s.hw.rdr <;> simp [gots, dropsRx]
  | _ =>
    have hp : s.main.popping = false := by rw [hmain]; rfl
    rw [hmain] at hs; simp only [Option.some.injEq, Prod.mk.injEq] at hs
    obtain ⟨rfl, rfl⟩ := hs
    exact RxGoal.quiet (h.mainFrame rfl rfl rfl hp.symm trivial) rfl rfl rfl rfl rfl

theorem step_rx {cfg : Config} {s s' : State α} {l t arr : List α} {n : Nat} {e : List (Ev α)} (h : RxInv cfg s l t arr n)
    (a : Act α) (hs : step cfg s a = some (s', e)) : RxGoal cfg t arr n s' e := by
  cases a with
  | call c =>
    simp only [step] at hs
    split at hs
    · rename_i hmain hisr
      simp only [Option.some.injEq, Prod.mk.injEq] at hs
      obtain ⟨rfl, rfl⟩ := hs
      refine RxGoal.quiet (h.mainFrame rfl rfl rfl ?_ ?_) rfl rfl rfl rfl rfl
      · rw [hmain]; cases c <;> rfl
      · unfold MainRx; cases c <;> trivial
    · simp only [Option.some.injEq, Prod.mk.injEq] at hs
      obtain ⟨rfl, rfl⟩ := hs
      exact RxGoal.quiet h rfl rfl rfl rfl rfl
  | main =>
    simp only [step] at hs
    split at hs
    · rename_i hisr; exact main_rx h hisr hs
    · simp only [Option.some.injEq, Prod.mk.injEq] at hs
      obtain ⟨rfl, rfl⟩ := hs
      exact RxGoal.quiet h rfl rfl rfl rfl rfl
  | interrupt =>
    simp only [step] at hs
    split at hs
    · rename_i hisr
      split at hs
      · simp only [Option.some.injEq, Prod.mk.injEq] at hs
        obtain ⟨rfl, rfl⟩ := hs
        refine RxGoal.quiet (h.isrFrame rfl rfl rfl ?_ ?_) rfl rfl rfl rfl rfl
        · rw [hisr]; dsimp only; split <;> rfl
        · unfold IsrRx; dsimp only
          by_cases h0 : cfg.rxSize = 0
          · rw [if_pos h0]; trivial
          · rw [if_neg h0]; exact h0
      · simp only [Option.some.injEq, Prod.mk.injEq] at hs
        obtain ⟨rfl, rfl⟩ := hs
        exact RxGoal.quiet h rfl rfl rfl rfl rfl
    · simp only [Option.some.injEq, Prod.mk.injEq] at hs
      obtain ⟨rfl, rfl⟩ := hs
      exact RxGoal.quiet h rfl rfl rfl rfl rfl
  | isr => exact isr_rx h hs
  | load =>
    simp only [step] at hs
    split at hs <;> simp only [Option.some.injEq, Prod.mk.injEq] at hs <;> obtain ⟨rfl, rfl⟩ := hs
    · exact RxGoal.quiet (h.isrFrame rfl rfl rfl rfl h.isr) rfl rfl rfl rfl rfl
    · exact RxGoal.quiet h rfl rfl rfl rfl rfl
  | sent =>
    simp only [step] at hs
    split at hs <;> simp only [Option.some.injEq, Prod.mk.injEq] at hs <;> obtain ⟨rfl, rfl⟩ := hs
    · exact RxGoal.quiet (h.isrFrame rfl rfl rfl rfl h.isr) rfl rfl rfl rfl rfl
    · exact RxGoal.quiet h rfl rfl rfl rfl rfl
  | arrive x =>
    simp only [step] at hs
    have h1 := h.sub; have h2 := h.len
    unfold stock at h1 h2
    split at hs <;> rename_i hr <;> simp only [Option.some.injEq, Prod.mk.injEq] at hs <;> obtain ⟨rfl, rfl⟩ := hs
    · refine ⟨l, [], ⟨h.rep, ?_, ?_, ?_, ?_⟩, by simp [gots], by simp [gots, dropsRx]⟩
      · simp only [stock, arrivals, List.append_nil]
        have := h1.append (List.Sublist.refl [x])
        simpa [hr] using this
      · simp [stock, arrivals, overflows, eatens, hr] at h2 ⊢; omega
      · have := h.isr; unfold IsrRx at *; dsimp only
        cases hi : s.isr <;> rw [hi] at this <;> first | trivial | exact this | exact ⟨this.1, by simp⟩
      · exact h.main.frame rfl rfl (Nat.le_refl _) (fun _ _ _ => by simp)
    · refine ⟨l, [], ⟨h.rep, ?_, ?_, ?_, ?_⟩, by simp [gots], by simp [gots, dropsRx]⟩
      · simp only [stock, arrivals, List.append_nil]
        exact h1.trans (List.sublist_append_left _ _)
      · simp [stock, arrivals, overflows, eatens] at h2 ⊢; omega
      · exact h.isr
      · exact h.main.frame rfl rfl (Nat.le_refl _) (fun _ _ h => h)

/-- With separate registers, flags are cleared without reading data, and no read returns a byte that is not there. -/
theorem step_extended {cfg : Config} {s s' : State α} {l t arr : List α} {n : Nat} {e : List (Ev α)} (h : RxInv cfg s l t arr n)
    (hx : cfg.extended = true) (a : Act α) (hs : step cfg s a = some (s', e)) :
    eatens e = [] ∧ Ev.done Result.stale ∉ e := by
  have hi := h.isr; have hm := h.main
  unfold IsrRx at hi; unfold MainRx at hm
  cases a with
  | call c => simp only [step] at hs; split at hs <;> simp only [Option.some.injEq, Prod.mk.injEq] at hs <;> rw [← hs.2] <;> simp [eatens]
  | interrupt =>
    simp only [step] at hs; repeat' split at hs
    all_goals simp only [Option.some.injEq, Prod.mk.injEq] at hs; rw [← hs.2]; simp [eatens]
  | load | sent | arrive =>
    simp only [step] at hs; repeat' split at hs
    all_goals simp only [Option.some.injEq, Prod.mk.injEq] at hs; rw [← hs.2]; simp [eatens]
  | isr =>
    simp only [step] at hs
    unfold isrStep at hs
    cases hisr : s.isr <;> rw [hisr] at hs hi <;> simp only at hs
    case ackRead => rw [hx] at hi; cases hi
    case rxPush x =>
      split at hs
      · simp at hs
      · simp only [Option.some.injEq, Prod.mk.injEq] at hs; rw [← hs.2]; split <;> simp [eatens]
    all_goals
      repeat' split at hs
      all_goals simp only [Option.some.injEq, Prod.mk.injEq, reduceCtorEq] at hs
      all_goals rw [← hs.2]; simp [eatens]
  | main =>
    simp only [step] at hs
    split at hs
    · unfold mainStep at hs
      have hnb : ∀ (rest : List α) i, eatens (nextByte rest i).2 = [] ∧ Ev.done Result.stale ∉ (nextByte rest i).2 := by
        intro rest i; cases rest <;> simp [nextByte, eatens]
      cases hmain : s.main <;> rw [hmain] at hs hm <;> simp only at hs
      case write k x rest i =>
        unfold writeStep at hs
        cases k <;> simp only at hs
        all_goals
          repeat' split at hs
          all_goals simp only [Option.some.injEq, Prod.mk.injEq, reduceCtorEq] at hs
          all_goals rw [← hs.2]; simp [eatens, hnb]
      case blocking b x rest =>
        cases b <;> simp only [Option.some.injEq, Prod.mk.injEq] at hs <;> rw [← hs.2]
        · simp [eatens]
        · cases rest <;> simp [eatens]
      case finish b loop =>
        cases b <;> simp only at hs
        all_goals
          repeat' split at hs
          all_goals simp only [Option.some.injEq, Prod.mk.injEq] at hs; rw [← hs.2]; simp [eatens]
      case clear b =>
        cases b
        · simp only [hx, if_true, Option.some.injEq, Prod.mk.injEq] at hs; rw [← hs.2]; simp [eatens]
        · rw [hx] at hm; cases hm
      case readDirect =>
        split at hs <;> rename_i hr
        · simp only [Option.some.injEq, Prod.mk.injEq] at hs; rw [← hs.2]; simp [eatens, readDone]
        · exact absurd hr (hm.2 hx)
      case txSize o =>
        cases o <;> simp only [Option.some.injEq, Prod.mk.injEq] at hs <;> rw [← hs.2] <;> simp [eatens]
      case rxSize o =>
        cases o <;> simp only at hs
        all_goals
          repeat' split at hs
          all_goals simp only [Option.some.injEq, Prod.mk.injEq] at hs; rw [← hs.2]; simp [eatens]
      all_goals
        repeat' split at hs
        all_goals simp only [Option.some.injEq, Prod.mk.injEq, reduceCtorEq] at hs
        all_goals rw [← hs.2]; simp [eatens, readDone]
    · simp only [Option.some.injEq, Prod.mk.injEq] at hs; rw [← hs.2]; simp [eatens]

/-- No access outside of a queue. -/
theorem step_defined {cfg : Config} {s : State α} {l l' t arr acc : List α} {n d : Nat} (ht : TxInv cfg s l acc d)
    (hr : RxInv cfg s l' t arr n) (a : Act α) : step cfg s a ≠ none := by
  cases a with
  | call c => simp only [step]; split <;> simp
  | interrupt => simp only [step]; repeat' split
                 all_goals simp
  | load | sent | arrive => simp only [step]; repeat' split
                            all_goals simp
  | isr =>
    have hi := ht.isr
    unfold IsrTx at hi
    simp only [step]; unfold isrStep
    cases hisr : s.isr <;> simp only
    case rxPush x => obtain ⟨q, hq, -⟩ := rep_push hr.rep x; rw [hq]; simp
    case txWrite =>
      rw [hisr] at hi
      cases l with
      | nil => exact absurd rfl hi.2
      | cons a l => rw [rep_get ht.rep]; simp
    all_goals repeat' split
    all_goals simp
  | main =>
    have hm := ht.main; have hm' := hr.main
    unfold MainTx at hm; unfold MainRx at hm'
    simp only [step]
    split
    · unfold mainStep
      cases hmain : s.main <;> simp only
      case write k x rest i =>
        rw [hmain] at hm
        unfold writeStep
        cases k <;> simp only
        case store => rw [if_pos (rep_store ht.rep hm x).1]; simp
        all_goals repeat' split
        all_goals simp
      case readGet k got =>
        rw [hmain] at hm'
        cases l' with
        | nil => exact absurd rfl hm'.2
        | cons a l => rw [rep_get hr.rep]; simp
      case blocking b x rest => cases b <;> simp
      case finish b loop =>
        cases b <;> simp only
        all_goals repeat' split
        all_goals simp
      case clear b => cases b <;> simp only <;> (try split) <;> simp
      case txSize o => cases o <;> simp
      case rxSize o => cases o <;> simp only <;> (try split) <;> simp
      all_goals repeat' split
      all_goals simp
    · simp

/-! ### Results -/

/-- What the caller knows, compared with what has happened. -/
def Res (cfg : Config) (m : Main α) (a : Api α) (acc got : List α) (dt dr : Nat) : Prop :=
  match m with
  | .write k x rest i => ∃ pre, a.current.map data = some (pre ++ x :: rest) ∧ pre.length = i ∧
      acc = a.written ++ (match k with | .enable => pre ++ [x] | _ => pre) ∧ got = a.received ∧ dt = a.discardedTx ∧ dr = a.discardedRx
  | .blocking _ x rest => ∃ pre, a.current.map data = some (pre ++ x :: rest) ∧ acc = a.written ++ pre ∧
      got = a.received ∧ dt = a.discardedTx ∧ dr = a.discardedRx
  | .discardLoop c => acc = a.written ∧ got = a.received ∧ dt = a.discardedTx + c ∧ dr = a.discardedRx
  | .discardPop c => acc = a.written ∧ got = a.received ∧ dt + 1 = a.discardedTx + c ∧ dr = a.discardedRx
  | .discardStore c _ => acc = a.written ∧ got = a.received ∧ dt + 1 = a.discardedTx + c ∧ dr = a.discardedRx
  | .read n g => acc = a.written ∧ got = a.received ++ g ∧ dt = a.discardedTx ∧ dr = a.discardedRx ∧ (cfg.rxSize = 0 → g = []) ∧
      a.current = some (.read (g.length + n))
  | .readGet n g => acc = a.written ∧ got = a.received ++ g ∧ dt = a.discardedTx ∧ dr = a.discardedRx ∧ cfg.rxSize ≠ 0 ∧
      a.current = some (.read (g.length + n + 1))
  | .readPop n g => acc = a.written ∧ got = a.received ++ g ∧ dt = a.discardedTx ∧ dr = a.discardedRx ∧ cfg.rxSize ≠ 0 ∧
      a.current = some (.read (g.length + n))
  | .readStore n g _ => acc = a.written ∧ got = a.received ++ g ∧ dt = a.discardedTx ∧ dr = a.discardedRx ∧ cfg.rxSize ≠ 0 ∧
      a.current = some (.read (g.length + n))
  | .dropLoop c => acc = a.written ∧ got = a.received ∧ dt = a.discardedTx ∧ dr = a.discardedRx + c
  | .dropPop c => acc = a.written ∧ got = a.received ∧ dt = a.discardedTx ∧ dr + 1 = a.discardedRx + c
  | .dropStore c _ => acc = a.written ∧ got = a.received ∧ dt = a.discardedTx ∧ dr + 1 = a.discardedRx + c
  | _ => acc = a.written ∧ got = a.received ∧ dt = a.discardedTx ∧ dr = a.discardedRx

def ResGoal (cfg : Config) (a : Api α) (acc got : List α) (dt dr : Nat) (s' : State α) (e : List (Ev α)) : Prop :=
  Res cfg s'.main (e.foldl learn a) (acc ++ accepteds e) (got ++ gots e) (dt + dropsTx e) (dr + dropsRx e)

/-- Events which the caller does not see. -/
def Hidden (e : List (Ev α)) : Prop :=
  accepteds e = [] ∧ gots e = [] ∧ dropsTx e = 0 ∧ dropsRx e = 0 ∧ ∀ a : Api α, e.foldl learn a = a

theorem ResGoal.hidden {cfg : Config} {m : Main α} {a : Api α} {acc got : List α} {dt dr : Nat} {s' : State α} {e : List (Ev α)}
    (h : Res cfg m a acc got dt dr) (hm : s'.main = m) (he : Hidden e) : ResGoal cfg a acc got dt dr s' e := by
  unfold ResGoal
  rw [hm, he.1, he.2.1, he.2.2.1, he.2.2.2.1, he.2.2.2.2]
  simpa using h

theorem hidden_nil : Hidden ([] : List (Ev α)) := ⟨rfl, rfl, rfl, rfl, fun _ => rfl⟩

theorem hidden_eatenBy (h : Hw α) : Hidden (eatenBy h) := by
  unfold eatenBy; cases h.rdr <;> exact ⟨rfl, rfl, rfl, rfl, fun _ => rfl⟩

theorem isr_hidden {cfg : Config} {s s' : State α} {e : List (Ev α)} (hs : isrStep cfg s = some (s', e)) :
    s'.main = s.main ∧ Hidden e := by
  unfold isrStep at hs
  cases hisr : s.isr <;> rw [hisr] at hs <;> simp only at hs
  case ackRead => simp only [Option.some.injEq, Prod.mk.injEq] at hs; rw [← hs.1, ← hs.2]; exact ⟨rfl, hidden_eatenBy _⟩
  case rxPush x =>
    split at hs
    · simp at hs
    · simp only [Option.some.injEq, Prod.mk.injEq] at hs; rw [← hs.1, ← hs.2]
      refine ⟨rfl, ?_⟩
      split <;> exact ⟨rfl, rfl, rfl, rfl, fun _ => rfl⟩
  all_goals
    repeat' split at hs
    all_goals simp only [Option.some.injEq, Prod.mk.injEq, reduceCtorEq] at hs
    all_goals rw [← hs.1, ← hs.2]; exact ⟨rfl, hidden_nil⟩

theorem step_res {cfg : Config} {s s' : State α} {a : Api α} {acc got : List α} {dt dr : Nat} {e : List (Ev α)}
    (h : Res cfg s.main a acc got dt dr) (act : Act α) (hs : step cfg s act = some (s', e)) : ResGoal cfg a acc got dt dr s' e := by
  cases act with
  | call c =>
    simp only [step] at hs
    split at hs
    · rename_i hmain hisr
      simp only [Option.some.injEq, Prod.mk.injEq] at hs
      obtain ⟨rfl, rfl⟩ := hs
      rw [hmain] at h
      obtain ⟨rfl, rfl, rfl, rfl⟩ := h
      unfold ResGoal
      cases c <;> simp [start, Res, learn, accepteds, gots, dropsTx, dropsRx, data]
    · simp only [Option.some.injEq, Prod.mk.injEq] at hs
      obtain ⟨rfl, rfl⟩ := hs
      exact ResGoal.hidden h rfl hidden_nil
  | interrupt =>
    simp only [step] at hs; repeat' split at hs
    all_goals
      simp only [Option.some.injEq, Prod.mk.injEq] at hs
      obtain ⟨rfl, rfl⟩ := hs
      exact ResGoal.hidden h rfl hidden_nil
  | load | sent =>
    simp only [step] at hs; repeat' split at hs
    all_goals
      simp only [Option.some.injEq, Prod.mk.injEq] at hs
      obtain ⟨rfl, rfl⟩ := hs
      exact ResGoal.hidden h rfl hidden_nil
  | arrive x =>
    simp only [step] at hs; repeat' split at hs
    all_goals
      simp only [Option.some.injEq, Prod.mk.injEq] at hs
      obtain ⟨rfl, rfl⟩ := hs
      exact ResGoal.hidden h rfl ⟨rfl, rfl, rfl, rfl, fun _ => rfl⟩
  | isr => exact ResGoal.hidden h (isr_hidden hs).1 (isr_hidden hs).2
  | main =>
    simp only [step] at hs
    split at hs
    · unfold mainStep at hs
      cases hmain : s.main <;> rw [hmain] at hs h <;> simp only at hs
      case write k x rest i =>
        obtain ⟨pre, h1, h2, h3, rfl, rfl, rfl⟩ := h
        have hn : ∀ (b : Api α), b.current.map data = some (pre ++ x :: rest) → b.written = a.written → b.received = a.received →
            b.discardedTx = a.discardedTx → b.discardedRx = a.discardedRx →
            Res cfg (nextByte rest (i + 1)).1 ((nextByte rest (i + 1)).2.foldl learn b) (a.written ++ (pre ++ [x])) a.received a.discardedTx a.discardedRx := by
          intro b b1 b2 b3 b4 b5
          cases rest with
          | nil =>
            simp only [nextByte, Res, List.foldl, learn, b1, b2, b3, b4, b5, ← h2, Option.getD_some, and_self, and_true]
            rw [List.take_of_length_le (by simp)]
          | cons y ys =>
            refine ⟨pre ++ [x], by simpa [nextByte] using b1, by simp [h2], ?_, b3.symm, b4.symm, b5.symm⟩
            simp [nextByte, b2]
        have hnn : accepteds (nextByte rest (i + 1)).2 = [] ∧ gots (nextByte rest (i + 1)).2 = [] ∧
            dropsTx (nextByte rest (i + 1)).2 = 0 ∧ dropsRx (nextByte rest (i + 1)).2 = 0 := by
          cases rest <;> exact ⟨rfl, rfl, rfl, rfl⟩
        unfold writeStep at hs
        cases k <;> simp only at hs h3
        case direct =>
          simp only [Option.some.injEq, Prod.mk.injEq] at hs
          obtain ⟨rfl, rfl⟩ := hs
          have := hn a h1 rfl rfl rfl rfl
          unfold ResGoal
          simpa [accepteds, gots, dropsTx, dropsRx, learn, hnn, h3] using this
        case enable =>
          simp only [Option.some.injEq, Prod.mk.injEq] at hs
          obtain ⟨rfl, rfl⟩ := hs
          have := hn a h1 rfl rfl rfl rfl
          unfold ResGoal
          simpa [accepteds, gots, dropsTx, dropsRx, learn, hnn, h3] using this
        case full =>
          split at hs <;> simp only [Option.some.injEq, Prod.mk.injEq] at hs <;> obtain ⟨rfl, rfl⟩ := hs
          · unfold ResGoal
            simp [Res, accepteds, gots, dropsTx, dropsRx, learn, h1, h3, ← h2]
          · exact ResGoal.hidden (m := .write .store x rest i) ⟨pre, h1, h2, h3, rfl, rfl, rfl⟩ rfl hidden_nil
        case store =>
          split at hs <;> simp only [Option.some.injEq, Prod.mk.injEq, reduceCtorEq] at hs
          obtain ⟨rfl, rfl⟩ := hs
          exact ResGoal.hidden (m := .write .publish x rest i) ⟨pre, h1, h2, h3, rfl, rfl, rfl⟩ rfl hidden_nil
        case publish =>
          simp only [Option.some.injEq, Prod.mk.injEq] at hs
          obtain ⟨rfl, rfl⟩ := hs
          refine ⟨pre, h1, h2, ?_, ?_, rfl, rfl⟩
          · simp [accepteds, learn, h3]
          · simp [gots, learn]
        all_goals
          simp only [Option.some.injEq, Prod.mk.injEq] at hs
          obtain ⟨rfl, rfl⟩ := hs
          refine ⟨pre, h1, h2, ?_, ?_, rfl, rfl⟩
          · simp only [accepteds, h3, List.append_nil, List.foldl]
            split <;> first | rfl | (rename_i hk; split at hk <;> cases hk)
          · simp [gots]
      case blocking b x rest =>
        obtain ⟨pre, h1, h3, rfl, rfl, rfl⟩ := h
        cases b <;> simp only [Option.some.injEq, Prod.mk.injEq] at hs
        · obtain ⟨rfl, rfl⟩ := hs
          exact ResGoal.hidden (m := .blocking s.hw.tdr.isNone x rest) ⟨pre, h1, h3, rfl, rfl, rfl⟩ rfl hidden_nil
        · cases rest <;> obtain ⟨rfl, rfl⟩ := hs
          · simp [ResGoal, Res, accepteds, gots, dropsTx, dropsRx, learn, h1, h3]
          · refine ⟨pre ++ [x], by simpa [learn] using h1, ?_, ?_, rfl, rfl⟩
            · simp [accepteds, learn, h3]
            · simp [gots, learn]
      case finish b loop =>
        obtain ⟨rfl, rfl, rfl, rfl⟩ := h
        cases b <;> simp only at hs
        all_goals
          repeat' split at hs
          all_goals
            simp only [Option.some.injEq, Prod.mk.injEq] at hs
            obtain ⟨rfl, rfl⟩ := hs
            simp [ResGoal, hmain, Res, accepteds, gots, dropsTx, dropsRx, learn]
      case clear b =>
        obtain ⟨rfl, rfl, rfl, rfl⟩ := h
        cases b <;> simp only at hs
        · split at hs <;> simp only [Option.some.injEq, Prod.mk.injEq] at hs <;> obtain ⟨rfl, rfl⟩ := hs
          all_goals simp [ResGoal, Res, accepteds, gots, dropsTx, dropsRx, learn]
        · simp only [Option.some.injEq, Prod.mk.injEq] at hs
          obtain ⟨rfl, rfl⟩ := hs
          have := hidden_eatenBy s.hw
          simp [ResGoal, Res, accepteds_append, gots_append, dropsTx_append, dropsRx_append, this.1, this.2.1, this.2.2.1, this.2.2.2.1,
            this.2.2.2.2, accepteds, gots, dropsTx, dropsRx, learn]
      case txSize o =>
        obtain ⟨rfl, rfl, rfl, rfl⟩ := h
        cases o <;> simp only [Option.some.injEq, Prod.mk.injEq] at hs <;> obtain ⟨rfl, rfl⟩ := hs
        all_goals simp [ResGoal, Res, accepteds, gots, dropsTx, dropsRx, learn]
      case rxSize o =>
        obtain ⟨rfl, rfl, rfl, rfl⟩ := h
        cases o <;> simp only at hs
        all_goals
          repeat' split at hs
          all_goals
            simp only [Option.some.injEq, Prod.mk.injEq] at hs
            obtain ⟨rfl, rfl⟩ := hs
            simp [ResGoal, Res, accepteds, gots, dropsTx, dropsRx, learn]
      case read k g =>
        obtain ⟨h1, h2, h3, h4, h5, h6⟩ := h
        split at hs
        · rename_i h0
          obtain rfl := h5 h0
          split at hs <;> simp only [Option.some.injEq, Prod.mk.injEq] at hs <;> obtain ⟨rfl, rfl⟩ := hs <;>
          simp [ResGoal, Res, accepteds, gots, dropsTx, dropsRx, learn, readDone, h1, h2, h3, h4]
        · rename_i h0
          repeat' split at hs
          all_goals
            simp only [Option.some.injEq, Prod.mk.injEq] at hs
            obtain ⟨rfl, rfl⟩ := hs
            simp [ResGoal, Res, accepteds, gots, dropsTx, dropsRx, learn, readDone, h1, h2, h3, h4, h0, h6]
            try omega
      case readGet | readPop | readStore =>
        obtain ⟨h1, h2, h3, h4, h5, h6⟩ := h
        repeat' split at hs
        all_goals simp only [Option.some.injEq, Prod.mk.injEq, reduceCtorEq] at hs
        all_goals
          obtain ⟨rfl, rfl⟩ := hs
          simp [ResGoal, Res, accepteds, gots, dropsTx, dropsRx, learn, h1, h2, h3, h4, h5, h6]
          try omega
      all_goals
        repeat' split at hs
        all_goals simp only [Option.some.injEq, Prod.mk.injEq] at hs
        all_goals
          obtain ⟨rfl, rfl⟩ := hs
          obtain ⟨h1, h2, h3, h4⟩ := h
          simp [ResGoal, hmain, Res, accepteds, gots, dropsTx, dropsRx, learn, readDone, h1, h2, h3, h4]
          try omega
    · simp only [Option.some.injEq, Prod.mk.injEq] at hs
      obtain ⟨rfl, rfl⟩ := hs
      exact ResGoal.hidden h rfl hidden_nil

end Modm.Uart
