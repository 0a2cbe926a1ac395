import Verif.Spec.BxcanRx
import Verif.Lemmas.Uart
import Mathlib.Tactic.SplitIfs

set_option autoImplicit false

namespace Modm.BxcanRx

open Modm.AtomicQueue (Q next Rep head_le full_iff empty_iff size_eq rep_init rep_push rep_pop rep_get)
open Modm.Uart (isEmpty_iff)
open Spec.BxcanRx

variable {α : Type}

/-! ### Events -/

theorem arrived_append (i : Bool) (a b : List (Ev α)) : arrived i (a ++ b) = arrived i a ++ arrived i b := by
  induction a with
  | nil => rfl
  | cons e a ih =>
    cases e <;> simp only [arrived, List.cons_append, ih]
    split_ifs <;> simp

theorem got_append (i : Bool) (a b : List (Ev α)) : got i (a ++ b) = got i a ++ got i b := by
  induction a with
  | nil => rfl
  | cons e a ih =>
    cases e <;> simp only [got, List.cons_append, ih]
    split_ifs <;> simp

theorem overruns_append (i : Bool) (a b : List (Ev α)) : overruns i (a ++ b) = overruns i a + overruns i b := by
  induction a with
  | nil => simp [overruns]
  | cons e a ih => cases e <;> simp only [overruns, List.cons_append, ih] <;> omega

theorem drops_append (i : Bool) (a b : List (Ev α)) : drops i (a ++ b) = drops i a + drops i b := by
  induction a with
  | nil => simp [drops]
  | cons e a ih => cases e <;> simp only [drops, List.cons_append, ih] <;> omega

theorem fulls_append (i : Bool) (a b : List (Ev α)) : fulls i (a ++ b) = fulls i a + fulls i b := by
  induction a with
  | nil => simp [fulls]
  | cons e a ih => cases e <;> simp only [fulls, List.cons_append, ih] <;> omega

theorem announced_append (a b : List (Ev α)) (x : Bool) : announced x (a ++ b) = announced (announced x a) b := by
  induction a generalizing x with
  | nil => rfl
  | cons e a ih => cases e <;> simp [announced, ih]

theorem upd_same {β : Type} (f : Bool → β) (k : Bool) (v : β) : upd f k v k = v := by simp [upd]
theorem upd_ne {β : Type} (f : Bool → β) {k j : Bool} (v : β) (h : j ≠ k) : upd f k v j = f j := by simp [upd, h]

/-! ### With a queue: the invariant -/

def IsrB (s : State α) : Prop :=
  match s.isr with
  | .none => True
  | .check i => s.fovr i = true ∨ s.f i ≠ []
  | .discard i => s.fovr i = true
  | .header i => s.f i ≠ [] ∧ (s.fovr i = true → (s.f i).length = 3)
  | .data i h => (s.f i).head? = some h ∧ (s.fovr i = true → (s.f i).length = 3)
  | .release i h d => h = d ∧ (s.f i).head? = some h ∧ (s.fovr i = true → (s.f i).length = 3)
  | .push x => x.hdr = x.dat

def MainB (s : State α) (l : List (Item α)) : Prop :=
  match s.main with
  | .idle | .check | .available => True
  | .get => l ≠ []
  | .more x | .pop x => l.head? = some x
  | _ => False

structure BInv (cfg : Config) (s : State α) (l : List (Item α)) : Prop where
  rep : Rep cfg.rxSize s.q l
  isr : IsrB s
  main : MainB s l
  len : ∀ i, (s.f i).length ≤ 3
  ovr : ∀ i, s.fovr i = true → 2 ≤ (s.f i).length
  same : ∀ x ∈ l, x.hdr = x.dat

/-- The queue after a step. -/
def nextQ (cfg : Config) (s : State α) (l : List (Item α)) : Act α → List (Item α)
  | .main => match s.isr, s.main with
    | .none, .pop _ => l.tail
    | _, _ => l
  | .isr => match s.isr with
    | .push x => if l.length < cfg.rxSize then l ++ [x] else l
    | _ => l
  | _ => l

theorem step_defined {cfg : Config} {s : State α} {l : List (Item α)} (h : BInv cfg s l) (a : Act α) :
    ∃ s' e, step cfg s a = some (s', e) := by
  obtain ⟨f, fo, q, mn, isr⟩ := s
  obtain ⟨hr, hi, hm, -, -, -⟩ := h
  cases a with
  | call c => cases mn <;> cases isr <;> exact ⟨_, _, rfl⟩
  | arrive i m => simp only [step]; split_ifs <;> exact ⟨_, _, rfl⟩
  | interrupt i => cases isr <;> simp only [step] <;> first | exact ⟨_, _, rfl⟩ | (split <;> exact ⟨_, _, rfl⟩)
  | isr =>
    cases isr with
    | check i => simp only [step, isrStep]; split <;> exact ⟨_, _, rfl⟩
    | header i => simp only [step, isrStep]; split <;> exact ⟨_, _, rfl⟩
    | data i => simp only [step, isrStep]; split <;> exact ⟨_, _, rfl⟩
    | push x =>
      obtain ⟨q', he, -⟩ := rep_push hr x
      simp only [step, isrStep, he]; exact ⟨_, _, rfl⟩
    | _ => exact ⟨_, _, rfl⟩
  | main =>
    cases isr with
    | none =>
      cases mn with
      | check => simp only [step, mainStep]; split <;> exact ⟨_, _, rfl⟩
      | get =>
        obtain ⟨m, t, rfl⟩ := List.exists_cons_of_ne_nil hm
        simp only [step, mainStep, rep_get hr]; exact ⟨_, _, rfl⟩
      | more x =>
        obtain ⟨t, rfl⟩ := List.head?_eq_some_iff.1 hm
        simp only [step, mainStep, rep_get hr]; exact ⟨_, _, rfl⟩
      | available => simp only [step, mainStep]; split <;> exact ⟨_, _, rfl⟩
      | fmp i => exact hm.elim
      | header i => exact hm.elim
      | data i h => exact hm.elim
      | release i h d => exact hm.elim
      | _ => exact ⟨_, _, rfl⟩
    | _ => exact ⟨_, _, rfl⟩

theorem step_inv {cfg : Config} (h0 : cfg.rxSize ≠ 0) {s s' : State α} {l : List (Item α)} {e : List (Ev α)} (h : BInv cfg s l) {a : Act α}
    (hs : step cfg s a = some (s', e)) : BInv cfg s' (nextQ cfg s l a) := by
  obtain ⟨f, fo, q, mn, isr⟩ := s
  have h' := h
  obtain ⟨hr, hi, hm, hl, ho, hsm⟩ := h
  dsimp only at hr hl ho
  cases a with
  | call c =>
    cases mn <;> cases isr <;> cases hs <;> try exact h'
    refine ⟨hr, hi, ?_, hl, ho, hsm⟩
    cases c <;> simp [start, h0, MainB]
  | interrupt i =>
    cases isr <;> simp only [step] at hs <;> try (cases hs; exact h')
    split_ifs at hs with hp <;> cases hs
    · refine ⟨hr, ?_, hm, hl, ho, hsm⟩
      simp only [pending, Bool.or_eq_true, Bool.and_eq_true, bne_iff_ne, ne_eq, Bool.not_eq_true', List.isEmpty_eq_false_iff] at hp
      simp only [IsrB]
      rcases hp with hp | hp
      · exact .inl hp
      · exact .inr hp.2
    · exact h'
  | arrive i m =>
    simp only [step] at hs
    split_ifs at hs with h1 h2 <;> cases hs <;> (refine ⟨hr, ?_, hm, ?_, ?_, hsm⟩)
    · cases isr with
      | none => trivial
      | push x => exact hi
      | check j =>
        simp only [IsrB] at hi ⊢
        by_cases hj : j = i
        · subst hj; right; simp [upd_same]
        · rwa [upd_ne _ _ hj]
      | discard j => exact hi
      | header j =>
        simp only [IsrB] at hi ⊢
        by_cases hj : j = i
        · subst hj
          simp only [upd_same]
          exact ⟨by simp, fun h => by have := hi.2 h; omega⟩
        · rwa [upd_ne _ _ hj]
      | data j h =>
        simp only [IsrB] at hi ⊢
        by_cases hj : j = i
        · subst hj
          simp only [upd_same]
          exact ⟨by simp [List.head?_append, hi.1], fun h => by have := hi.2 h; omega⟩
        · rwa [upd_ne _ _ hj]
      | release j h d =>
        simp only [IsrB] at hi ⊢
        by_cases hj : j = i
        · subst hj
          simp only [upd_same]
          exact ⟨hi.1, by simp [List.head?_append, hi.2.1], fun h => by have := hi.2.2 h; omega⟩
        · rwa [upd_ne _ _ hj]
    · intro j
      by_cases hj : j = i
      · subst hj; simp [upd_same]; omega
      · simpa only [upd_ne _ _ hj] using hl j
    · intro j hfo
      by_cases hj : j = i
      · subst hj; have := ho j hfo; simp [upd_same]; omega
      · simpa only [upd_ne _ _ hj] using ho j hfo
    · have h3 : (f i).length = 3 := by have := hl i; omega
      cases isr with
      | none => trivial
      | push x => exact hi
      | check j =>
        simp only [IsrB] at hi ⊢
        by_cases hj : j = i
        · subst hj; left; simp [upd_same]
        · rwa [upd_ne _ _ hj]
      | discard j =>
        simp only [IsrB] at hi ⊢
        by_cases hj : j = i
        · subst hj; simp [upd_same]
        · rwa [upd_ne _ _ hj]
      | header j =>
        simp only [IsrB] at hi ⊢
        by_cases hj : j = i
        · subst hj; exact ⟨hi.1, fun _ => h3⟩
        · rwa [upd_ne _ _ hj]
      | data j h =>
        simp only [IsrB] at hi ⊢
        by_cases hj : j = i
        · subst hj; exact ⟨hi.1, fun _ => h3⟩
        · rwa [upd_ne _ _ hj]
      | release j h d =>
        simp only [IsrB] at hi ⊢
        by_cases hj : j = i
        · subst hj; exact ⟨hi.1, hi.2.1, fun _ => h3⟩
        · rwa [upd_ne _ _ hj]
    · exact hl
    · intro j hfo
      by_cases hj : j = i
      · subst hj; show 2 ≤ (f j).length; omega
      · dsimp only at hfo; rw [upd_ne _ _ hj] at hfo; exact ho j hfo
    · have h3 : (f i).length = 3 := by have := hl i; omega
      obtain ⟨x, y, z, hf⟩ : ∃ x y z, f i = [x, y, z] := by
        match hx : f i, h3 with
        | [x, y, z], _ => exact ⟨x, y, z, rfl⟩
      cases isr with
      | none => trivial
      | push x => exact hi
      | check j =>
        simp only [IsrB] at hi ⊢
        by_cases hj : j = i
        · subst hj; left; simp [upd_same]
        · rwa [upd_ne _ _ hj, upd_ne _ _ hj]
      | discard j =>
        simp only [IsrB] at hi ⊢
        by_cases hj : j = i
        · subst hj; simp [upd_same]
        · rwa [upd_ne _ _ hj]
      | header j =>
        simp only [IsrB] at hi ⊢
        by_cases hj : j = i
        · subst hj; simp [upd_same, hf]
        · rwa [upd_ne _ _ hj, upd_ne _ _ hj]
      | data j h =>
        simp only [IsrB] at hi ⊢
        by_cases hj : j = i
        · subst hj; rw [hf] at hi; simpa [upd_same, hf] using hi.1
        · rwa [upd_ne _ _ hj, upd_ne _ _ hj]
      | release j h d =>
        simp only [IsrB] at hi ⊢
        by_cases hj : j = i
        · subst hj; rw [hf] at hi; exact ⟨hi.1, by simpa [upd_same, hf] using hi.2.1, by simp [upd_same, hf]⟩
        · rwa [upd_ne _ _ hj, upd_ne _ _ hj]
    · intro j
      by_cases hj : j = i
      · subst hj; have := hl j; simp [upd_same]; omega
      · simpa only [upd_ne _ _ hj] using hl j
    · intro j hfo
      by_cases hj : j = i
      · subst hj; simp [upd_same]; omega
      · dsimp only at hfo; rw [upd_ne _ _ hj] at hfo; simpa only [upd_ne _ _ hj] using ho j hfo
  | isr =>
    cases isr with
    | none => cases hs; exact h'
    | check i =>
      simp only [step, isrStep, h0, if_false] at hs
      split_ifs at hs with hf <;> cases hs
      · exact ⟨hr, hf, hm, hl, ho, hsm⟩
      · refine ⟨hr, ?_, hm, hl, ho, hsm⟩
        simp only [IsrB] at hi ⊢
        exact ⟨hi.resolve_left hf, fun h => absurd h hf⟩
    | discard i =>
      simp only [step, isrStep, h0, if_false] at hs
      cases hs
      have h2 := ho i hi
      refine ⟨hr, ?_, hm, ?_, ?_, hsm⟩
      · simp only [IsrB, upd_same]
        refine ⟨?_, by simp⟩
        rw [← List.length_pos_iff]; simp; omega
      · intro j
        by_cases hj : j = i
        · subst hj; have := hl j; simp [upd_same]; omega
        · simpa only [upd_ne _ _ hj] using hl j
      · intro j hfo
        by_cases hj : j = i
        · subst hj; simp [upd_same] at hfo
        · dsimp only at hfo; rw [upd_ne _ _ hj] at hfo; simpa only [upd_ne _ _ hj] using ho j hfo
    | header i =>
      simp only [IsrB] at hi
      obtain ⟨x, t, hf⟩ := List.exists_cons_of_ne_nil hi.1
      simp only [step, isrStep, hf] at hs
      cases hs
      exact ⟨hr, ⟨by simp [hf], hi.2⟩, hm, hl, ho, hsm⟩
    | data i h =>
      simp only [IsrB] at hi
      obtain ⟨t, hf⟩ := List.head?_eq_some_iff.1 hi.1
      simp only [step, isrStep, hf] at hs
      cases hs
      exact ⟨hr, ⟨rfl, by simp [hf], hi.2⟩, hm, hl, ho, hsm⟩
    | release i h d =>
      cases hs
      simp only [IsrB] at hi
      refine ⟨hr, hi.1, hm, ?_, ?_, hsm⟩
      · intro j
        by_cases hj : j = i
        · subst hj; have := hl j; simp [upd_same]; omega
        · simpa only [upd_ne _ _ hj] using hl j
      · intro j hfo
        by_cases hj : j = i
        · subst hj; have := hi.2.2 hfo; simp [upd_same]; omega
        · simpa only [upd_ne _ _ hj] using ho j hfo
    | push x =>
      obtain ⟨q', he, hq⟩ := rep_push hr x
      simp only [step, isrStep, he] at hs
      cases hs
      refine ⟨hq, trivial, ?_, hl, ho, ?_⟩
      · simp only [nextQ]
        split_ifs with hlt
        · cases mn <;> simp_all [MainB]
        · exact hm
      · simp only [nextQ]
        split_ifs with hlt
        · intro y hy
          rcases List.mem_append.1 hy with hy | hy
          · exact hsm y hy
          · rw [List.mem_singleton.1 hy]; exact hi
        · exact hsm
  | main =>
    cases isr with
    | none =>
      cases mn with
      | idle => cases hs; exact h'
      | check =>
        simp only [step, mainStep] at hs
        split_ifs at hs with hem <;> cases hs
        · exact ⟨hr, hi, trivial, hl, ho, hsm⟩
        · exact ⟨hr, hi, fun hn => hem ((isEmpty_iff hr).2 hn), hl, ho, hsm⟩
      | get =>
        obtain ⟨m, t, rfl⟩ := List.exists_cons_of_ne_nil hm
        simp only [step, mainStep, rep_get hr] at hs
        cases hs
        exact ⟨hr, hi, rfl, hl, ho, hsm⟩
      | more x =>
        obtain ⟨t, rfl⟩ := List.head?_eq_some_iff.1 hm
        simp only [step, mainStep, rep_get hr] at hs
        cases hs
        exact ⟨hr, hi, rfl, hl, ho, hsm⟩
      | pop x =>
        obtain ⟨t, rfl⟩ := List.head?_eq_some_iff.1 hm
        cases hs
        exact ⟨rep_pop hr, hi, trivial, hl, ho, fun y hy => hsm y (List.mem_cons_of_mem _ hy)⟩
      | available =>
        simp only [step, mainStep, h0, ne_eq, not_false_eq_true, if_true] at hs
        cases hs
        exact ⟨hr, hi, trivial, hl, ho, hsm⟩
      | fmp i => exact hm.elim
      | header i => exact hm.elim
      | data i h => exact hm.elim
      | release i h d => exact hm.elim
    | _ => cases hs; exact h'

theorem init_inv {cfg : Config} {mem : List (Item α)} (hf : Fits cfg mem) : BInv cfg (init mem) [] :=
  ⟨rep_init _ hf.size hf.mem, trivial, trivial, by intro i; simp [init], by intro i h; simp [init] at h, by simp⟩

/-! ### The flow -/

/-- The messages of a FIFO in the queue. -/
def ofFifo (i : Bool) (l : List (Item α)) : List (α × α) := (l.filter (fun x => x.fifo = i)).map fun x => (x.hdr, x.dat)

theorem ofFifo_append (i : Bool) (a b : List (Item α)) : ofFifo i (a ++ b) = ofFifo i a ++ ofFifo i b := by simp [ofFifo]

theorem ofFifo_cons (i : Bool) (x : Item α) (l : List (Item α)) :
    ofFifo i (x :: l) = (if x.fifo = i then [(x.hdr, x.dat)] else []) ++ ofFifo i l := by
  simp only [ofFifo, List.filter_cons]
  by_cases h : x.fifo = i <;> simp [h]

/-- The message of a FIFO in the hands of the handler. -/
def hand (i : Bool) : Isr α → List (α × α)
  | .push x => ofFifo i [x]
  | _ => []

/-- What is in the driver. -/
def rest (i : Bool) (s : State α) (l : List (Item α)) : List (α × α) := ofFifo i l ++ (hand i s.isr ++ (s.f i).map frame)

/-- What a step does to the flow. -/
def Flows (i : Bool) (r r' : List (α × α)) (e : List (Ev α)) : Prop :=
  (got i e ++ r').Sublist (r ++ (arrived i e).map frame) ∧
  (got i e).length + r'.length + overruns i e + drops i e + fulls i e = r.length + (arrived i e).length

theorem Flows.refl (i : Bool) (r : List (α × α)) : Flows i r r [] := by simp [Flows, got, arrived, overruns, drops, fulls]

theorem Flows.of_eq {i : Bool} {r r' : List (α × α)} (h : r' = r) : Flows i r r' [] := h ▸ Flows.refl i r

theorem Flows.quiet {i : Bool} {r r' : List (α × α)} {e : List (Ev α)} (h : r' = r) (h1 : got i e = []) (h2 : arrived i e = [])
    (h3 : overruns i e = 0) (h4 : drops i e = 0) (h5 : fulls i e = 0) : Flows i r r' e := by
  subst h; simp [Flows, h1, h2, h3, h4, h5]

theorem step_flow {cfg : Config} (h0 : cfg.rxSize ≠ 0) {s s' : State α} {l : List (Item α)} {e : List (Ev α)} (h : BInv cfg s l) {a : Act α}
    (hs : step cfg s a = some (s', e)) (i : Bool) : Flows i (rest i s l) (rest i s' (nextQ cfg s l a)) e := by
  obtain ⟨f, fo, q, mn, isr⟩ := s
  obtain ⟨hr, hi, hm, hl, ho, hsm⟩ := h
  dsimp only at hr hl ho
  cases a with
  | call c =>
    cases mn <;> cases isr <;> cases hs <;> first | exact .refl _ _ | exact .quiet rfl rfl rfl rfl rfl rfl
  | interrupt j =>
    cases isr <;> simp only [step] at hs <;> try (cases hs; exact .refl _ _)
    split_ifs at hs <;> cases hs <;> exact .refl _ _
  | arrive j m =>
    simp only [step] at hs
    split_ifs at hs with h1 h2 <;> cases hs <;> by_cases hj : j = i
    · subst hj
      simp [Flows, rest, upd_same, nextQ, got, arrived, overruns, drops, fulls]; omega
    · refine .quiet ?_ rfl (by simp [arrived, hj]) rfl rfl rfl
      simp [rest, upd_ne _ _ (Ne.symm hj), nextQ]
    · subst hj
      simp [Flows, rest, nextQ, got, arrived, overruns, drops, fulls]
    · refine .quiet rfl rfl (by simp [arrived, hj]) (by simp [overruns, hj]) rfl rfl
    · subst hj
      have h3 : (f j).length = 3 := by have := hl j; omega
      obtain ⟨x, y, z, hf⟩ : ∃ x y z, f j = [x, y, z] := by
        match hx : f j, h3 with
        | [x, y, z], _ => exact ⟨x, y, z, rfl⟩
      simp [Flows, rest, upd_same, nextQ, hf, got, arrived, overruns, drops, fulls]
    · cases hg : (f j).getLast? with
      | none =>
        refine .quiet ?_ (by simp [got]) (by simp [arrived, hj]) (by simp [overruns]) (by simp [drops]) (by simp [fulls])
        simp [rest, upd_ne _ _ (Ne.symm hj), nextQ]
      | some z =>
        refine .quiet ?_ (by simp [got]) (by simp [arrived, hj]) (by simp [overruns, hj]) (by simp [drops]) (by simp [fulls])
        simp [rest, upd_ne _ _ (Ne.symm hj), nextQ]
  | isr =>
    cases isr with
    | none => cases hs; exact .refl _ _
    | check j =>
      simp only [step, isrStep, h0, if_false] at hs
      split_ifs at hs with hf <;> cases hs <;> exact .of_eq (by simp [rest, hand, nextQ])
    | discard j =>
      simp only [step, isrStep, h0, if_false] at hs
      cases hs
      have h2 := ho j hi
      by_cases hj : j = i
      · subst hj
        match hf : f j, h2 with
        | x :: t, _ => simp [Flows, rest, hand, upd_same, nextQ, hf, got, arrived, overruns, drops, fulls]; omega
      · match hf : f j, h2 with
        | x :: t, _ =>
          refine .quiet ?_ rfl rfl rfl (by simp [drops, hj]) rfl
          simp [rest, hand, upd_ne _ _ (Ne.symm hj), nextQ]
    | header j =>
      simp only [IsrB] at hi
      obtain ⟨x, t, hf⟩ := List.exists_cons_of_ne_nil hi.1
      simp only [step, isrStep, hf] at hs
      cases hs
      exact .refl _ _
    | data j h =>
      simp only [IsrB] at hi
      obtain ⟨t, hf⟩ := List.head?_eq_some_iff.1 hi.1
      simp only [step, isrStep, hf] at hs
      cases hs
      exact .refl _ _
    | release j h d =>
      cases hs
      simp only [IsrB] at hi
      obtain ⟨rfl, hh, -⟩ := hi
      obtain ⟨t, hf⟩ := List.head?_eq_some_iff.1 hh
      by_cases hj : j = i
      · subst hj
        exact .of_eq (by simp [rest, hand, ofFifo, upd_same, nextQ, hf, frame])
      · exact .of_eq (by simp [rest, hand, ofFifo, upd_ne _ _ (Ne.symm hj), nextQ, hj])
    | push x =>
      obtain ⟨q', he, hq⟩ := rep_push hr x
      simp only [step, isrStep, he] at hs
      cases hs
      by_cases hlt : l.length < cfg.rxSize
      · simp only [hlt, decide_true, if_true]
        exact .of_eq (by simp [rest, hand, nextQ, hlt, ofFifo_append])
      · simp only [hlt, decide_false, Bool.false_eq_true, if_false]
        by_cases hj : x.fifo = i
        · simp [Flows, rest, hand, ofFifo, nextQ, hlt, hj, got, arrived, overruns, drops, fulls]; omega
        · refine .quiet ?_ rfl rfl rfl rfl (by simp [fulls, hj])
          simp [rest, hand, ofFifo, nextQ, hlt, hj]
  | main =>
    cases isr with
    | none =>
      cases mn with
      | idle => cases hs; exact .refl _ _
      | check =>
        simp only [step, mainStep] at hs
        split_ifs at hs with hem <;> cases hs <;> exact .quiet rfl rfl rfl rfl rfl rfl
      | get =>
        obtain ⟨m, t, rfl⟩ := List.exists_cons_of_ne_nil hm
        simp only [step, mainStep, rep_get hr] at hs
        cases hs
        exact .refl _ _
      | more x =>
        obtain ⟨t, rfl⟩ := List.head?_eq_some_iff.1 hm
        simp only [step, mainStep, rep_get hr] at hs
        cases hs
        exact .refl _ _
      | pop x =>
        obtain ⟨t, rfl⟩ := List.head?_eq_some_iff.1 hm
        cases hs
        by_cases hj : x.fifo = i
        · simp [Flows, rest, hand, ofFifo, nextQ, hj, got, arrived, overruns, drops, fulls]; omega
        · refine .quiet ?_ (by simp [got, hj]) rfl rfl rfl rfl
          simp [rest, hand, ofFifo, nextQ, hj]
      | available =>
        simp only [step, mainStep, h0, ne_eq, not_false_eq_true, if_true] at hs
        cases hs
        exact .quiet rfl rfl rfl rfl rfl rfl
      | fmp i => exact hm.elim
      | header i => exact hm.elim
      | data i h => exact hm.elim
      | release i h d => exact hm.elim
    | _ => cases hs; exact .refl _ _

/-- What is true at any time. -/
structure BFlow (s : State α) (l : List (Item α)) (tr : List (Ev α)) (i : Bool) : Prop where
  flow : Flows i [] (rest i s l) tr
  drop : drops i tr + (if s.fovr i then 1 else 0) ≤ overruns i tr

theorem step_drop {cfg : Config} {s s' : State α} {l : List (Item α)} {e : List (Ev α)} (h : BInv cfg s l) {a : Act α}
    (hs : step cfg s a = some (s', e)) (i : Bool) :
    drops i e + (if s'.fovr i then 1 else 0) ≤ overruns i e + (if s.fovr i then 1 else 0) := by
  obtain ⟨f, fo, q, mn, isr⟩ := s
  obtain ⟨hr, hi, hm, hl, ho, hsm⟩ := h
  dsimp only at hr hl ho
  cases a with
  | call c => cases mn <;> cases isr <;> cases hs <;> simp [drops, overruns]
  | interrupt j =>
    cases isr <;> simp only [step] at hs <;> try (cases hs; simp [drops, overruns])
    split_ifs at hs <;> cases hs <;> simp [drops, overruns]
  | arrive j m =>
    simp only [step] at hs
    split_ifs at hs with h1 h2 <;> cases hs <;> by_cases hj : j = i
    · simp [drops, overruns]
    · simp [drops, overruns]
    · subst hj; simp [drops, overruns, upd_same]
    · simp [drops, overruns, upd_ne _ _ (Ne.symm hj), hj]
    · subst hj
      have h3 : (f j).length = 3 := by have := hl j; omega
      obtain ⟨x, y, z, hf⟩ : ∃ x y z, f j = [x, y, z] := by
        match hx : f j, h3 with
        | [x, y, z], _ => exact ⟨x, y, z, rfl⟩
      simp [drops, overruns, upd_same, hf]
    · cases hg : (f j).getLast? <;> simp [drops, overruns, upd_ne _ _ (Ne.symm hj), hj]
  | isr =>
    cases isr with
    | none => cases hs; simp [drops, overruns]
    | check j =>
      simp only [step, isrStep] at hs
      split_ifs at hs with hf <;> cases hs <;> simp [drops, overruns]
    | discard j =>
      cases hs
      simp only [IsrB] at hi
      by_cases hj : j = i
      · subst hj
        cases hf : f j <;> simp [hf, drops, overruns, upd_same, hi]
      · cases hf : f j <;> simp [hf, drops, overruns, upd_ne _ _ (Ne.symm hj), hj]
    | header j => simp only [step, isrStep] at hs; split at hs <;> cases hs <;> simp [drops, overruns]
    | data j h => simp only [step, isrStep] at hs; split at hs <;> cases hs <;> simp [drops, overruns]
    | release j h d => cases hs; simp [drops, overruns]
    | push x =>
      obtain ⟨q', he, hq⟩ := rep_push hr x
      simp only [step, isrStep, he] at hs
      cases hs
      split_ifs <;> simp [drops, overruns]
  | main =>
    cases isr with
    | none =>
      simp only [step, mainStep] at hs
      cases mn <;> simp only at hs <;> repeat' split at hs
      all_goals (first | cases hs | skip)
      all_goals simp [drops, overruns]
    | _ => cases hs; simp [drops, overruns]

theorem Flows.trans {i : Bool} {r r' r'' : List (α × α)} {e e' : List (Ev α)} (h : Flows i r r' e) (h' : Flows i r' r'' e') :
    Flows i r r'' (e ++ e') := by
  obtain ⟨h1, h2⟩ := h
  obtain ⟨h3, h4⟩ := h'
  simp only [Flows, got_append, arrived_append, overruns_append, drops_append, fulls_append, List.map_append, List.length_append]
  refine ⟨?_, by omega⟩
  have h5 := (List.append_sublist_append_left (got i e)).2 h3
  have h6 := (List.append_sublist_append_right ((arrived i e').map frame)).2 h1
  simp only [List.append_assoc] at h5 h6 ⊢
  exact h5.trans h6

theorem reach_b {cfg : Config} (h0 : cfg.rxSize ≠ 0) {mem : List (Item α)} (hf : Fits cfg mem) {ok : State α → Act α → Prop} {s : State α} {tr : List (Ev α)}
    (h : Reach cfg ok (init mem) s tr) : ∃ l, BInv cfg s l ∧ ∀ i, BFlow s l tr i := by
  induction h with
  | start => exact ⟨[], init_inv hf, fun i => ⟨.refl _ _, by simp [init, drops]⟩⟩
  | step a _ _ hs ih =>
    obtain ⟨l, hb, hfl⟩ := ih
    refine ⟨_, step_inv h0 hb hs, fun i => ⟨(hfl i).flow.trans (step_flow h0 hb hs i), ?_⟩⟩
    rw [drops_append, overruns_append]
    have h1 := (hfl i).drop
    have h2 := step_drop hb hs i
    omega

end Modm.BxcanRx
