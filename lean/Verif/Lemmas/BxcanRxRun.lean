import Verif.Lemmas.BxcanRx

set_option autoImplicit false

namespace Modm.BxcanRx

open Modm.AtomicQueue (Q next Rep head_le full_iff empty_iff size_eq rep_init rep_push rep_pop rep_get)
open Modm.Uart (isEmpty_iff)
open Spec.BxcanRx

variable {α : Type}

/-! ### No mailbox is read without a message -/

theorem not_stale {cfg : Config} (h0 : cfg.rxSize ≠ 0) {s s' : State α} {l : List (Item α)} {e : List (Ev α)} (h : BInv cfg s l) {a : Act α}
    (hs : step cfg s a = some (s', e)) : Ev.stale ∉ e := by
  obtain ⟨f, fo, q, mn, isr⟩ := s
  obtain ⟨hr, hi, hm, hl, ho, hsm⟩ := h
  dsimp only at hr hl ho
  cases a with
  | call c => cases mn <;> cases isr <;> cases hs <;> simp
  | interrupt j =>
    cases isr <;> simp only [step] at hs <;> try (cases hs; simp)
    split_ifs at hs <;> cases hs <;> simp
  | arrive j m =>
    simp only [step] at hs
    split_ifs at hs with h1 h2 <;> cases hs <;> simp
  | isr =>
    cases isr with
    | none => cases hs; simp
    | check j =>
      simp only [step, isrStep] at hs
      split_ifs at hs with hf <;> cases hs <;> simp
    | discard j =>
      cases hs
      have := ho j hi
      match hf : f j, this with
      | x :: t, _ => simp [hf]
    | header j =>
      simp only [IsrB] at hi
      obtain ⟨x, t, hf⟩ := List.exists_cons_of_ne_nil hi.1
      simp only [step, isrStep, hf] at hs
      cases hs; simp
    | data j h =>
      simp only [IsrB] at hi
      obtain ⟨t, hf⟩ := List.head?_eq_some_iff.1 hi.1
      simp only [step, isrStep, hf] at hs
      cases hs; simp
    | release j h d => cases hs; simp
    | push x =>
      obtain ⟨q', he, hq⟩ := rep_push hr x
      simp only [step, isrStep, he] at hs
      cases hs
      split_ifs <;> simp
  | main =>
    cases isr with
    | none =>
      cases mn with
      | fmp i => exact hm.elim
      | header i => exact hm.elim
      | data i h => exact hm.elim
      | release i h d => exact hm.elim
      | idle => cases hs; simp
      | check => simp only [step, mainStep] at hs; split_ifs at hs <;> cases hs <;> simp
      | get => simp only [step, mainStep] at hs; split at hs <;> cases hs; simp
      | more x => simp only [step, mainStep] at hs; split at hs <;> cases hs; simp
      | pop x => cases hs; simp
      | available => simp only [step, mainStep] at hs; split_ifs at hs <;> cases hs <;> simp
    | _ => cases hs; simp

/-! ### `isMessageAvailable` -/

theorem step_announced {cfg : Config} (h0 : cfg.rxSize ≠ 0) {s s' : State α} {l : List (Item α)} {e : List (Ev α)} (h : BInv cfg s l) {a : Act α}
    (hs : step cfg s a = some (s', e)) {b : Bool} (hb : b = true → l ≠ []) : announced b e = true → nextQ cfg s l a ≠ [] := by
  obtain ⟨f, fo, q, mn, isr⟩ := s
  obtain ⟨hr, hi, hm, hl, ho, hsm⟩ := h
  dsimp only at hr hl ho
  cases a with
  | call c => cases mn <;> cases isr <;> cases hs <;> simpa [announced, nextQ] using hb
  | interrupt j =>
    cases isr <;> simp only [step] at hs <;> try (cases hs; simpa [announced, nextQ] using hb)
    split_ifs at hs <;> cases hs <;> simpa [announced, nextQ] using hb
  | arrive j m =>
    simp only [step] at hs
    split_ifs at hs with h1 h2 <;> cases hs <;> try simpa [announced, nextQ] using hb
    cases (f j).getLast? <;> simpa [announced, nextQ] using hb
  | isr =>
    cases isr with
    | none => cases hs; simpa [announced, nextQ] using hb
    | check j =>
      simp only [step, isrStep] at hs
      split_ifs at hs with hf <;> cases hs <;> simpa [announced, nextQ] using hb
    | discard j => cases hs; cases hf : f j <;> simpa [hf, announced, nextQ] using hb
    | header j => simp only [step, isrStep] at hs; split at hs <;> cases hs <;> simpa [announced, nextQ] using hb
    | data j h => simp only [step, isrStep] at hs; split at hs <;> cases hs <;> simpa [announced, nextQ] using hb
    | release j h d => cases hs; simpa [announced, nextQ] using hb
    | push x =>
      obtain ⟨q', he, hq⟩ := rep_push hr x
      simp only [step, isrStep, he] at hs
      cases hs
      intro ha
      have hbt : b = true := by revert ha; split_ifs <;> simp [announced]
      simp only [nextQ]
      split_ifs
      · simp
      · exact hb hbt
  | main =>
    cases isr with
    | none =>
      cases mn with
      | fmp i => exact hm.elim
      | header i => exact hm.elim
      | data i h => exact hm.elim
      | release i h d => exact hm.elim
      | idle => cases hs; simpa [announced, nextQ] using hb
      | check =>
        simp only [step, mainStep] at hs
        split_ifs at hs <;> cases hs
        · simp [announced]
        · simpa [announced, nextQ] using hb
      | get => simp only [step, mainStep] at hs; split at hs <;> cases hs; simpa [announced, nextQ] using hb
      | more x => simp only [step, mainStep] at hs; split at hs <;> cases hs; simpa [announced, nextQ] using hb
      | pop x => cases hs; simp [announced]
      | available =>
        simp only [step, mainStep, h0, ne_eq, not_false_eq_true, if_true] at hs
        cases hs
        intro ha hn
        simp [announced, (isEmpty_iff hr).2 hn] at ha
    | _ => cases hs; simpa [announced, nextQ] using hb

/-- `getMessage` finds nothing only if the queue is empty. -/
theorem nothing {cfg : Config} {s s' : State α} {l : List (Item α)} {e : List (Ev α)} (h : BInv cfg s l) {a : Act α}
    (hs : step cfg s a = some (s', e)) (he : Ev.nothing ∈ e) : l = [] := by
  obtain ⟨f, fo, q, mn, isr⟩ := s
  obtain ⟨hr, hi, hm, hl, ho, hsm⟩ := h
  dsimp only at hr hl ho
  cases a with
  | call c => cases mn <;> cases isr <;> cases hs <;> simp at he
  | interrupt j =>
    cases isr <;> simp only [step] at hs <;> try (cases hs; simp at he)
    split_ifs at hs <;> cases hs <;> simp at he
  | arrive j m =>
    simp only [step] at hs
    split_ifs at hs with h1 h2 <;> cases hs <;> simp at he
  | isr =>
    simp only [step, isrStep] at hs
    cases isr <;> simp only at hs <;> repeat' split at hs
    all_goals (first | cases hs | skip)
    all_goals try simp at he
    all_goals split at he <;> simp at he
  | main =>
    cases isr with
    | none =>
      cases mn with
      | fmp i => exact hm.elim
      | header i => exact hm.elim
      | data i h => exact hm.elim
      | release i h d => exact hm.elim
      | idle => cases hs; simp at he
      | check =>
        simp only [step, mainStep] at hs
        split_ifs at hs with hem <;> cases hs
        · exact (isEmpty_iff hr).1 hem
        · simp at he
      | get => simp only [step, mainStep] at hs; split at hs <;> cases hs; simp at he
      | more x => simp only [step, mainStep] at hs; split at hs <;> cases hs; simp at he
      | pop x => cases hs; simp at he
      | available => simp only [step, mainStep] at hs; split_ifs at hs <;> cases hs <;> simp at he
    | _ => cases hs; simp at he

theorem reach_announced {cfg : Config} (h0 : cfg.rxSize ≠ 0) {mem : List (Item α)} (hf : Fits cfg mem) {ok : State α → Act α → Prop} {s : State α} {tr : List (Ev α)}
    (h : Reach cfg ok (init mem) s tr) : ∃ l, BInv cfg s l ∧ (announced false tr = true → l ≠ []) := by
  induction h with
  | start => exact ⟨[], init_inv hf, by simp [announced]⟩
  | step a _ _ hs ih =>
    obtain ⟨l, hb, hn⟩ := ih
    refine ⟨_, step_inv h0 hb hs, ?_⟩
    rw [announced_append]
    exact step_announced h0 hb hs hn

/-! ### Without further messages everything is delivered -/

def isrRank : Isr α → Nat
  | .none => 7
  | .check _ => 6
  | .discard _ => 0
  | .header _ => 5
  | .data _ _ => 4
  | .release _ _ _ => 3
  | .push _ => 18

def mainRank : Main α → Nat
  | .idle => 5
  | .check => 4
  | .get => 3
  | .more _ => 2
  | _ => 1

def todo (s : State α) (l : List (Item α)) : Nat :=
  20 * ((s.f false).length + (s.f true).length) + 10 * l.length + isrRank s.isr + mainRank s.main

structure Fetch (s : State α) (l : List (Item α)) : Prop where
  isr : s.isr ≠ .none → l = [] ∧ s.main = .idle
  main : s.main ≠ .idle → l ≠ []
  ava : s.main ≠ .available
  ovr : ∀ i, s.fovr i = false

/-- What happens next. -/
def choose (s : State α) (l : List (Item α)) : Act α :=
  match s.isr, s.main with
  | .none, .idle => if l ≠ [] then .call .get else if s.f false ≠ [] then .interrupt false else .interrupt true
  | .none, _ => .main
  | _, _ => .isr

/-- Nothing is lost, nothing arrives. -/
def Lossless (e : List (Ev α)) : Prop := ∀ i, arrived i e = [] ∧ overruns i e = 0 ∧ drops i e = 0 ∧ fulls i e = 0

theorem len_upd_tail (f : Bool → List α) (i : Bool) (h : f i ≠ []) :
    (upd f i (f i).tail false).length + (upd f i (f i).tail true).length + 1 = (f false).length + (f true).length := by
  have : 0 < (f i).length := List.length_pos_iff.2 h
  cases i <;> simp [upd] <;> omega

theorem fetch_step {cfg : Config} (h0 : cfg.rxSize ≠ 0) {s : State α} {l : List (Item α)} (h : BInv cfg s l) (hf : Fetch s l)
    (hw : s.isr ≠ .none ∨ s.main ≠ .idle ∨ l ≠ [] ∨ s.f false ≠ [] ∨ s.f true ≠ []) :
    ∃ s' e, step cfg s (choose s l) = some (s', e) ∧ Lossless e ∧ Fetch s' (nextQ cfg s l (choose s l)) ∧
      todo s' (nextQ cfg s l (choose s l)) < todo s l := by
  obtain ⟨f, fo, q, mn, isr⟩ := s
  obtain ⟨hr, hi, hm, hl, ho, hsm⟩ := h
  obtain ⟨f1, f2, f3, f4⟩ := hf
  dsimp only at hr hl ho f1 f2 f3 f4 hw
  have hnil : Lossless ([] : List (Ev α)) := fun i => ⟨rfl, rfl, rfl, rfl⟩
  cases isr with
  | none =>
    cases mn with
    | fmp i => exact hm.elim
    | header i => exact hm.elim
    | data i h => exact hm.elim
    | release i h d => exact hm.elim
    | available => exact absurd rfl f3
    | idle =>
      simp only [choose]
      split_ifs with h1 h2
      · refine ⟨_, _, rfl, fun i => ⟨rfl, rfl, rfl, rfl⟩, ⟨by simp, by simp [nextQ, h1], by simp [start, h0], f4⟩, ?_⟩
        simp [todo, nextQ, start, h0, isrRank, mainRank]
      · have h1 : l = [] := Classical.not_not.1 h1
        refine ⟨⟨f, fo, q, .idle, .check false⟩, [], by simp [step, pending, f4, h0, h2], hnil, ⟨by simp [nextQ, h1], by simp, by simp, f4⟩, ?_⟩
        simp [todo, nextQ, isrRank, mainRank]
      · have h1 : l = [] := Classical.not_not.1 h1
        have h3 : f true ≠ [] := by
          rcases hw with hw | hw | hw | hw | hw
          · exact absurd rfl hw
          · exact absurd rfl hw
          · exact absurd h1 hw
          · exact absurd hw h2
          · exact hw
        refine ⟨⟨f, fo, q, .idle, .check true⟩, [], by simp [step, pending, f4, h0, h3], hnil, ⟨by simp [nextQ, h1], by simp, by simp, f4⟩, ?_⟩
        simp [todo, nextQ, isrRank, mainRank]
    | check =>
      have hne := f2 (by simp)
      have hem : AtomicQueue.isEmpty q = false := by
        cases he : AtomicQueue.isEmpty q with
        | false => rfl
        | true => exact absurd ((isEmpty_iff hr).1 he) hne
      refine ⟨⟨f, fo, q, .get, .none⟩, [], by simp [choose, step, mainStep, hem], hnil, ⟨by simp, by simpa [nextQ, choose] using hne, by simp, f4⟩, ?_⟩
      simp [todo, nextQ, choose, isrRank, mainRank]
    | get =>
      have hne := f2 (by simp)
      obtain ⟨x, t, rfl⟩ := List.exists_cons_of_ne_nil hne
      refine ⟨⟨f, fo, q, .more x, .none⟩, [], by simp [choose, step, mainStep, rep_get hr], hnil, ⟨by simp, by simp [nextQ, choose], by simp, f4⟩, ?_⟩
      simp [todo, nextQ, choose, isrRank, mainRank]
    | more x =>
      have hne := f2 (by simp)
      obtain ⟨y, t, rfl⟩ := List.exists_cons_of_ne_nil hne
      refine ⟨⟨f, fo, q, .pop { x with dat := y.dat }, .none⟩, [], by simp [choose, step, mainStep, rep_get hr], hnil, ⟨by simp, by simp [nextQ, choose], by simp, f4⟩, ?_⟩
      simp [todo, nextQ, choose, isrRank, mainRank]
    | pop x =>
      have hne := f2 (by simp)
      obtain ⟨y, t, rfl⟩ := List.exists_cons_of_ne_nil hne
      refine ⟨_, _, rfl, fun i => ⟨rfl, rfl, rfl, rfl⟩, ⟨by simp, by simp, by simp, f4⟩, ?_⟩
      simp [todo, nextQ, choose, isrRank, mainRank]; omega
  | check j =>
    obtain ⟨rfl, rfl⟩ := f1 (by simp)
    refine ⟨⟨f, fo, q, .idle, .header j⟩, [], by simp [choose, step, isrStep, f4, h0], hnil, ⟨by simp [nextQ, choose], by simp, by simp, f4⟩, ?_⟩
    simp [todo, nextQ, choose, isrRank, mainRank]
  | discard j => exact absurd (f4 j) (by simp only [IsrB] at hi; simp [hi])
  | header j =>
    obtain ⟨rfl, rfl⟩ := f1 (by simp)
    simp only [IsrB] at hi
    obtain ⟨x, t, hx⟩ := List.exists_cons_of_ne_nil hi.1
    refine ⟨⟨f, fo, q, .idle, .data j x⟩, [], by simp [choose, step, isrStep, hx], hnil, ⟨by simp [nextQ, choose], by simp, by simp, f4⟩, ?_⟩
    simp [todo, nextQ, choose, isrRank, mainRank]
  | data j h =>
    obtain ⟨rfl, rfl⟩ := f1 (by simp)
    simp only [IsrB] at hi
    obtain ⟨t, hx⟩ := List.head?_eq_some_iff.1 hi.1
    refine ⟨⟨f, fo, q, .idle, .release j h h⟩, [], by simp [choose, step, isrStep, hx], hnil, ⟨by simp [nextQ, choose], by simp, by simp, f4⟩, ?_⟩
    simp [todo, nextQ, choose, isrRank, mainRank]
  | release j h d =>
    obtain ⟨rfl, rfl⟩ := f1 (by simp)
    simp only [IsrB] at hi
    have hne : f j ≠ [] := by intro hn; simp [hn] at hi
    refine ⟨_, _, rfl, hnil, ⟨by simp [nextQ, choose], by simp, by simp, f4⟩, ?_⟩
    have := len_upd_tail f j hne
    simp only [todo, nextQ, choose, isrRank, mainRank, List.length_nil]; omega
  | push x =>
    obtain ⟨rfl, rfl⟩ := f1 (by simp)
    obtain ⟨q', he, hq⟩ := rep_push hr x
    have hlt : 0 < cfg.rxSize := Nat.pos_of_ne_zero h0
    refine ⟨⟨f, fo, q', .idle, .none⟩, [], by simp [choose, step, isrStep, he, hlt], hnil, ⟨by simp, by simp, by simp, f4⟩, ?_⟩
    simp [todo, nextQ, choose, isrRank, mainRank, hlt]

theorem choose_quiet (s : State α) (l : List (Item α)) : Quiet (choose s l) := by
  unfold choose
  split
  · split_ifs <;> trivial
  · trivial
  · trivial

theorem lossless_append {a b : List (Ev α)} (ha : Lossless a) (hb : Lossless b) : Lossless (a ++ b) := fun i => by
  obtain ⟨a1, a2, a3, a4⟩ := ha i
  obtain ⟨b1, b2, b3, b4⟩ := hb i
  exact ⟨by rw [arrived_append, a1, b1]; rfl, by rw [overruns_append, a2, b2], by rw [drops_append, a3, b3], by rw [fulls_append, a4, b4]⟩

theorem fetch {cfg : Config} (h0 : cfg.rxSize ≠ 0) (n : Nat) : ∀ (s : State α) (l : List (Item α)), todo s l = n → BInv cfg s l → Fetch s l →
    ∃ as s' e, (∀ a ∈ as, Quiet a) ∧ run cfg s as = some (s', e) ∧ Lossless e ∧ ∀ i, Flows i (rest i s l) [] e := by
  induction n using Nat.strongRecOn with
  | _ n ih =>
    intro s l hn hb hf
    by_cases hw : s.isr ≠ .none ∨ s.main ≠ .idle ∨ l ≠ [] ∨ s.f false ≠ [] ∨ s.f true ≠ []
    · obtain ⟨s1, e1, hs, hl, hf1, hlt⟩ := fetch_step h0 hb hf hw
      obtain ⟨as, s', e, hq, hr, hle, hfl⟩ := ih _ (by omega) s1 _ rfl (step_inv h0 hb hs) hf1
      refine ⟨choose s l :: as, s', e1 ++ e, ?_, ?_, lossless_append hl hle, fun i => (step_flow h0 hb hs i).trans (hfl i)⟩
      · intro a ha
        rcases List.mem_cons.1 ha with rfl | ha
        · exact choose_quiet s l
        · exact hq a ha
      · simp [run, hs, hr]
    · have hx : s.isr = .none ∧ s.main = .idle ∧ l = [] ∧ s.f false = [] ∧ s.f true = [] := by
        simp only [not_or, ne_eq, Classical.not_not] at hw
        exact hw
      refine ⟨[], s, [], by simp, rfl, fun i => ⟨rfl, rfl, rfl, rfl⟩, fun i => ?_⟩
      have : rest i s l = [] := by cases i <;> simp [rest, hx, hand, ofFifo]
      rw [this]; exact .refl _ _

/-! ### Without a queue -/

def MainU (s : State α) : Prop :=
  match s.main with
  | .idle | .fmp _ | .available => True
  | .header i => s.f i ≠ []
  | .data i h => (s.f i).head? = some h
  | .release i h d => h = d ∧ (s.f i).head? = some h
  | _ => False

structure UInv (s : State α) (tr : List (Ev α)) : Prop where
  isr : s.isr = .none
  ovr : ∀ i, s.fovr i = false
  main : MainU s
  len : ∀ i, (s.f i).length ≤ 3
  flow : ∀ i, got i tr ++ (s.f i).map frame = (arrived i tr).map frame
  ann : announced false tr = true → (s.f false ≠ [] ∨ s.f true ≠ []) ∧ (s.main = .fmp true → s.f true ≠ [])

theorem step_u {cfg : Config} (h0 : cfg.rxSize = 0) {s s' : State α} {tr e : List (Ev α)} (h : UInv s tr) {a : Act α}
    (hs : step cfg s a = some (s', e)) (hno : ∀ i m, Ev.overrun i m ∉ e) : UInv s' (tr ++ e) ∧ Ev.stale ∉ e ∧
      (announced false tr = true → Ev.nothing ∉ e) := by
  obtain ⟨f, fo, q, mn, isr⟩ := s
  have h' := h
  obtain ⟨hi, ho, hm, hl, hfl, ha⟩ := h
  dsimp only at hi ho hl hfl ha
  subst hi
  cases a with
  | call c =>
    cases mn <;> cases hs <;> try simpa using h'
    refine ⟨⟨rfl, ho, ?_, hl, ?_, ?_⟩, by simp, by simp⟩
    · cases c <;> simp [start, h0, MainU]
    · intro i; rw [got_append, arrived_append]; simpa [got, arrived] using hfl i
    · rw [announced_append]
      intro hx
      refine ⟨(ha hx).1, ?_⟩
      cases c <;> simp [start, h0]
  | interrupt j =>
    simp only [step, pending, ho, h0] at hs
    simp at hs
    obtain ⟨rfl, rfl⟩ := hs
    simpa using h'
  | isr => cases hs; simpa using h'
  | arrive j m =>
    simp only [step] at hs
    split_ifs at hs with h1 h2 <;> cases hs
    · refine ⟨⟨rfl, ho, ?_, ?_, ?_, ?_⟩, by simp, by simp⟩
      · cases mn with
        | idle => trivial
        | fmp i => trivial
        | available => trivial
        | check => exact hm
        | get => exact hm
        | more x => exact hm
        | pop x => exact hm
        | header i =>
          simp only [MainU] at hm ⊢
          by_cases hj : i = j
          · subst hj; simp [upd_same]
          · rwa [upd_ne _ _ hj]
        | data i h =>
          simp only [MainU] at hm ⊢
          by_cases hj : i = j
          · subst hj; simp [upd_same, List.head?_append, hm]
          · rwa [upd_ne _ _ hj]
        | release i h d =>
          simp only [MainU] at hm ⊢
          by_cases hj : i = j
          · subst hj; simp [upd_same, List.head?_append, hm]
          · rwa [upd_ne _ _ hj]
      · intro i
        by_cases hj : i = j
        · subst hj; simp [upd_same]; omega
        · simpa only [upd_ne _ _ hj] using hl i
      · intro i
        have := hfl i
        rw [got_append, arrived_append]
        by_cases hj : i = j
        · subst hj
          simp only [upd_same, got, arrived, List.append_nil, List.map_append, if_true, ← this]
          simp
        · simpa only [upd_ne _ _ hj, got, arrived, Ne.symm hj, if_false, List.append_nil] using this
      · rw [announced_append]
        intro hx
        obtain ⟨k1, k2⟩ := ha hx
        refine ⟨?_, fun hmn => ?_⟩
        · cases j <;> simp [upd] <;> simp_all
        · have := k2 hmn
          cases j <;> simp [upd] <;> simp_all
    · exact (hno j m (by simp)).elim
    · have h3 : (f j).length = 3 := by have := hl j; omega
      obtain ⟨x, y, z, hf⟩ : ∃ x y z, f j = [x, y, z] := by
        match hx : f j, h3 with
        | [x, y, z], _ => exact ⟨x, y, z, rfl⟩
      exact absurd (by simp [hf] : Ev.overrun j z ∈ _) (hno j z)
  | main =>
    cases mn with
    | check => exact hm.elim
    | get => exact hm.elim
    | more x => exact hm.elim
    | pop x => exact hm.elim
    | idle => cases hs; simpa using h'
    | fmp i =>
      simp only [step, mainStep] at hs
      split_ifs at hs with h1 h2 <;> cases hs
      · refine ⟨⟨rfl, ho, h1, hl, by simpa using hfl, ?_⟩, by simp, by simp⟩
        rw [List.append_nil]; intro hx; exact ⟨(ha hx).1, by simp⟩
      · subst h2
        refine ⟨⟨rfl, ho, trivial, hl, ?_, ?_⟩, by simp, ?_⟩
        · intro i; rw [got_append, arrived_append]; simpa [got, arrived] using hfl i
        · rw [announced_append]; simp [announced]
        · intro hx; exact absurd ((ha hx).2 rfl) h1
      · refine ⟨⟨rfl, ho, trivial, hl, by simpa using hfl, ?_⟩, by simp, by simp⟩
        rw [List.append_nil]
        intro hx
        have := (ha hx).1
        have hi : i = false := by simpa using h2
        subst hi
        exact ⟨this, fun _ => this.resolve_left h1⟩
    | header i =>
      obtain ⟨x, t, hx⟩ := List.exists_cons_of_ne_nil hm
      dsimp only at hx
      simp only [step, mainStep, hx] at hs
      cases hs
      refine ⟨⟨rfl, ho, by simp [MainU, hx], hl, by simpa using hfl, ?_⟩, by simp, by simp⟩
      rw [List.append_nil]; intro hx; exact ⟨(ha hx).1, by simp⟩
    | data i h =>
      obtain ⟨t, hx⟩ := List.head?_eq_some_iff.1 hm
      dsimp only at hx
      simp only [step, mainStep, hx] at hs
      cases hs
      refine ⟨⟨rfl, ho, by simp [MainU, hx], hl, by simpa using hfl, ?_⟩, by simp, by simp⟩
      rw [List.append_nil]; intro hx; exact ⟨(ha hx).1, by simp⟩
    | release i h d =>
      obtain ⟨rfl, hh⟩ := hm
      obtain ⟨t, hx⟩ := List.head?_eq_some_iff.1 hh
      dsimp only at hx
      cases hs
      refine ⟨⟨rfl, ho, trivial, ?_, ?_, ?_⟩, by simp, by simp⟩
      · intro k
        by_cases hj : k = i
        · subst hj; have := hl k; simp [upd_same]; omega
        · simpa only [upd_ne _ _ hj] using hl k
      · intro k
        have := hfl k
        rw [got_append, arrived_append]
        by_cases hj : k = i
        · subst hj
          rw [← (by simpa [arrived] using this : got k tr ++ _ = (arrived k tr ++ arrived k [Ev.got ⟨k, h, h⟩]).map frame)]
          simp [got, upd_same, hx, frame]
        · simpa [got, arrived, upd_ne _ _ hj, Ne.symm hj] using this
      · rw [announced_append]; simp [announced]
    | available =>
      simp only [step, mainStep, h0] at hs
      simp at hs
      obtain ⟨rfl, rfl⟩ := hs
      refine ⟨⟨rfl, ho, trivial, hl, ?_, ?_⟩, by simp, by simp⟩
      · intro i; rw [got_append, arrived_append]; simpa [got, arrived] using hfl i
      · rw [announced_append]
        simp only [announced]
        intro hx
        refine ⟨?_, by simp⟩
        simpa [Classical.or_iff_not_imp_left] using hx

theorem reach_u {cfg : Config} (h0 : cfg.rxSize = 0) {mem : List (Item α)} {ok : State α → Act α → Prop} {s : State α} {tr : List (Ev α)}
    (h : Reach cfg ok (init mem) s tr) (hno : ∀ i m, Ev.overrun i m ∉ tr) : UInv s tr := by
  induction h with
  | start => exact ⟨rfl, fun _ => rfl, trivial, by simp [init], by simp [init, got, arrived], by simp [announced]⟩
  | step a _ _ hs ih =>
    exact (step_u h0 (ih fun i m hm => hno i m (List.mem_append_left _ hm)) hs fun i m hm => hno i m (List.mem_append_right _ hm)).1

end Modm.BxcanRx
