import Verif.Spec.SystemClock
import Mathlib.Tactic.SplitIfs
import Mathlib.Tactic.Ring

set_option autoImplicit false

namespace Modm.SystemClock

open Spec.SystemClock

theorem assemble_append (cfg : Config) (l : List Nat) (p : Nat) :
    assemble cfg (l ++ [p]) = assemble cfg l + 2 ^ (cfg.width * l.length) * p := by
  induction l with
  | nil => simp [assemble]
  | cons a l ih =>
    simp only [List.cons_append, assemble, ih, List.length_cons]
    rw [Nat.mul_add, show cfg.width * (l.length + 1) = cfg.width + cfg.width * l.length by ring, Nat.pow_add]
    ring

/-- the parts of a value -/
def partsOf (cfg : Config) (v n : Nat) : List Nat := (List.range n).map (part cfg v)

theorem partsOf_succ (cfg : Config) (v n : Nat) : partsOf cfg v (n + 1) = partsOf cfg v n ++ [part cfg v n] := by
  simp [partsOf, List.range_succ]

theorem partsOf_length (cfg : Config) (v n : Nat) : (partsOf cfg v n).length = n := by simp [partsOf]

theorem assemble_parts (cfg : Config) (v n : Nat) : assemble cfg (partsOf cfg v n) = v % 2 ^ (cfg.width * n) := by
  induction n with
  | zero => simp [partsOf, assemble, Nat.mod_one]
  | succ n ih =>
    rw [partsOf_succ, assemble_append, ih, partsOf_length, part, Nat.mul_add, Nat.pow_add, Nat.mul_one, Nat.mod_mul]

def openFrom : Option Nat → List Ev → Option Nat
  | o, [] => o
  | _, .called t :: tr => openFrom (some t) tr
  | _, .returned _ _ :: tr => openFrom none tr
  | o, .other _ _ :: tr => openFrom o tr

theorem openFrom_append (o : Option Nat) (a b : List Ev) : openFrom o (a ++ b) = openFrom (openFrom o a) b := by
  induction a generalizing o with
  | nil => rfl
  | cons e a ih => cases e <;> simp [openFrom, ih]

theorem callsFrom_append (o : Option Nat) (a b : List Ev) : callsFrom o (a ++ b) = callsFrom o a ++ callsFrom (openFrom o a) b := by
  induction a generalizing o with
  | nil => rfl
  | cons e a ih => cases e <;> cases o <;> simp [callsFrom, openFrom, ih]

/-- What is known during a call which began at `t`. -/
def MainOk (cfg : Config) (s : State) (o : Option Nat) : Prop :=
  match s.main with
  | .idle => o = none
  | .clear | .val => ∃ t, o = some t ∧ t ≤ now cfg s
  | .time v acc => ∃ t, o = some t ∧ t ≤ now cfg s ∧ acc.length < cfg.parts ∧ (s.flag = false →
      ∃ u, t ≤ u ∧ u ≤ now cfg s ∧ v = u % cfg.period ∧ acc = partsOf cfg (variable_ cfg s) acc.length ∧
        (u / cfg.period = s.handled ∨ (s.pend = true ∧ 1 + acc.length ≤ s.late)))
  | .check v acc => ∃ t, o = some t ∧ t ≤ now cfg s ∧ acc.length = cfg.parts ∧ (s.flag = false →
      ∃ u, t ≤ u ∧ u ≤ now cfg s ∧ v = u % cfg.period ∧ acc = partsOf cfg (variable_ cfg s) acc.length ∧
        (u / cfg.period = s.handled ∨ (s.pend = true ∧ 1 + acc.length ≤ s.late)))

structure Inv (cfg : Config) (s : State) (o : Option Nat) : Prop where
  cnt : s.cnt < cfg.period
  periods : s.periods = s.handled + if s.pend then 1 else 0
  main : MainOk cfg s o

theorem now_div {cfg : Config} {s : State} (h : s.cnt < cfg.period) : now cfg s / cfg.period = s.periods ∧ now cfg s % cfg.period = s.cnt := by
  have h0 : 0 < cfg.period := by omega
  constructor
  · rw [now, Nat.add_comm, Nat.add_mul_div_right _ _ h0, Nat.div_eq_of_lt h, Nat.zero_add]
  · rw [now, Nat.add_comm, Nat.add_mul_mod_self_right, Nat.mod_eq_of_lt h]

theorem now_step {cfg : Config} {s : State} (h : s.cnt < cfg.period) (a : Act) : now cfg s ≤ now cfg (step cfg s a).1 := by
  cases a with
  | tick =>
    simp only [step]
    split_ifs with hc
    · simp only [now]; omega
    · simp only [now, Nat.add_mul]; omega
  | handler => simp only [step]; split_ifs <;> exact Nat.le_refl _
  | call => simp only [step]; split <;> exact Nat.le_refl _
  | other => exact Nat.le_refl _
  | main =>
    simp only [step, mainStep]
    split
    · exact Nat.le_refl _
    · exact Nat.le_refl _
    · exact Nat.le_refl _
    · exact Nat.le_refl _
    · split_ifs <;> exact Nat.le_refl _

/-- What a call that returns has seen. -/
def Good (cfg : Config) (c : Nat × Nat × Nat) (u : Nat) : Prop := c.1 ≤ u ∧ u ≤ c.2.2 ∧ c.2.1 = shown cfg u % 2 ^ 32

theorem inv_step {cfg : Config} (hp : 0 < cfg.parts) (hw : cfg.width * cfg.parts = 32) {s : State} {o : Option Nat} (h : Inv cfg s o) {a : Act}
    (hok : Alone cfg s a) :
    Inv cfg (step cfg s a).1 (openFrom o (step cfg s a).2) ∧
    (∀ c ∈ callsFrom o (step cfg s a).2, c.2.2 = now cfg s ∧ ∃ u, Good cfg c u) := by
  have hnow := now_step h.cnt a
  obtain ⟨h1, h2, h3⟩ := h
  obtain ⟨hd, hm⟩ := now_div h1
  obtain ⟨cnt, periods, handled, pend, late, flag, main⟩ := s
  dsimp only at h1 h2 hd hm
  cases a with
  | tick =>
    refine ⟨?_, by simp only [step]; split_ifs <;> simp [callsFrom]⟩
    revert hnow
    simp only [step]
    split_ifs with hc
    · intro hnow
      refine ⟨hc, h2, ?_⟩
      cases main with
      | idle => exact h3
      | clear => obtain ⟨t, h4, h5⟩ := h3; exact ⟨t, h4, h5.trans hnow⟩
      | val => obtain ⟨t, h4, h5⟩ := h3; exact ⟨t, h4, h5.trans hnow⟩
      | time v acc =>
        obtain ⟨t, h4, h5, h6, h7⟩ := h3
        refine ⟨t, h4, h5.trans hnow, h6, fun hf => ?_⟩
        obtain ⟨u, h8, h9, h10⟩ := h7 hf
        exact ⟨u, h8, h9.trans hnow, h10⟩
      | check v acc =>
        obtain ⟨t, h4, h5, h6, h7⟩ := h3
        refine ⟨t, h4, h5.trans hnow, h6, fun hf => ?_⟩
        obtain ⟨u, h8, h9, h10⟩ := h7 hf
        exact ⟨u, h8, h9.trans hnow, h10⟩
    · have hpend : pend = false := by
        cases pend
        · rfl
        · exact absurd (hok rfl) hc
      subst hpend
      simp only [Bool.false_eq_true, if_false, Nat.add_zero] at h2
      intro hnow
      refine ⟨by dsimp only; omega, by dsimp only; simp [h2], ?_⟩
      cases main with
      | idle => exact h3
      | clear => obtain ⟨t, h4, h5⟩ := h3; exact ⟨t, h4, h5.trans hnow⟩
      | val => obtain ⟨t, h4, h5⟩ := h3; exact ⟨t, h4, h5.trans hnow⟩
      | time v acc =>
        obtain ⟨t, h4, h5, h6, h7⟩ := h3
        refine ⟨t, h4, h5.trans hnow, h6, fun hf => ?_⟩
        obtain ⟨u, h8, h9, h10, h11, h12⟩ := h7 hf
        exact ⟨u, h8, h9.trans hnow, h10, h11, .inl (h12.resolve_right (by simp))⟩
      | check v acc =>
        obtain ⟨t, h4, h5, h6, h7⟩ := h3
        refine ⟨t, h4, h5.trans hnow, h6, fun hf => ?_⟩
        obtain ⟨u, h8, h9, h10, h11, h12⟩ := h7 hf
        exact ⟨u, h8, h9.trans hnow, h10, h11, .inl (h12.resolve_right (by simp))⟩
  | handler =>
    refine ⟨?_, by simp only [step]; split_ifs <;> simp [callsFrom]⟩
    cases pend with
    | false => exact ⟨h1, h2, h3⟩
    | true =>
      refine ⟨h1, h2, ?_⟩
      cases main with
      | time v acc => obtain ⟨t, h4, h5, h6, -⟩ := h3; exact ⟨t, h4, h5, h6, fun hf => by cases hf⟩
      | check v acc => obtain ⟨t, h4, h5, h6, -⟩ := h3; exact ⟨t, h4, h5, h6, fun hf => by cases hf⟩
      | _ => exact h3
  | call =>
    cases main with
    | idle => exact ⟨⟨h1, h2, _, rfl, Nat.le_refl _⟩, by simp [step, callsFrom]⟩
    | _ => exact ⟨⟨h1, h2, h3⟩, by simp [step, callsFrom]⟩
  | other =>
    simp only [Alone] at hok
    subst hok
    exact ⟨⟨h1, h2, h3⟩, by cases o <;> simp [step, callsFrom]⟩
  | main =>
    cases main with
    | idle => exact ⟨⟨h1, h2, h3⟩, by simp [step, mainStep, callsFrom]⟩
    | clear => exact ⟨⟨h1, h2, h3⟩, by simp [step, mainStep, callsFrom]⟩
    | val =>
      refine ⟨⟨h1, h2, ?_⟩, by simp [step, mainStep, callsFrom]⟩
      obtain ⟨t, h4, h5⟩ := h3
      refine ⟨t, h4, h5, hp, fun _ => ⟨_, h5, Nat.le_refl _, hm.symm, rfl, ?_⟩⟩
      cases pend with
      | false => left; simpa [hd, step, mainStep] using h2
      | true => right; exact ⟨rfl, by simp [step]⟩
    | time v acc =>
      refine ⟨⟨h1, h2, ?_⟩, by simp [step, mainStep, callsFrom]⟩
      obtain ⟨t, h4, h5, h6, h7⟩ := h3
      dsimp only at h7
      have key : flag = false → ∃ u, t ≤ u ∧ u ≤ periods * cfg.period + cnt ∧ v = u % cfg.period ∧
          acc ++ [part cfg (cfg.step * handled % 2 ^ 32) acc.length] = partsOf cfg (cfg.step * handled % 2 ^ 32) (acc.length + 1) ∧
          (u / cfg.period = handled ∨ (pend = true ∧ 1 + (acc.length + 1) ≤ if pend then late + 1 else late)) := by
        intro hf
        obtain ⟨u, h8, h9, h10, h11, h12⟩ := h7 hf
        refine ⟨u, h8, h9, h10, ?_, ?_⟩
        · rw [partsOf_succ]
          congr 1
        · rcases h12 with h12 | ⟨h12, h13⟩
          · exact .inl h12
          · refine .inr ⟨h12, ?_⟩
            rw [if_pos h12]
            omega
      by_cases hl : acc.length + 1 < cfg.parts
      · simp only [step, mainStep, List.length_append, List.length_singleton, hl, if_true]
        refine ⟨t, h4, h5, by simpa using hl, fun hf => ?_⟩
        simp only [List.length_append, List.length_singleton]
        exact key hf
      · simp only [step, mainStep, List.length_append, List.length_singleton, hl, if_false]
        refine ⟨t, h4, h5, by simp; omega, fun hf => ?_⟩
        simp only [List.length_append, List.length_singleton]
        exact key hf
    | check v acc =>
      obtain ⟨t, h4, h5, h6, h7⟩ := h3
      subst h4
      cases flag with
      | true => exact ⟨⟨h1, h2, t, rfl, h5⟩, by simp [step, mainStep, callsFrom]⟩
      | false =>
        refine ⟨⟨h1, h2, rfl⟩, ?_⟩
        obtain ⟨u, h8, h9, h10, h11, h12⟩ := h7 rfl
        intro c hc
        simp only [step, mainStep, Bool.false_eq_true, if_false, callsFrom, List.mem_singleton] at hc
        subst hc
        refine ⟨rfl, u, h8, h9, ?_⟩
        have h13 : u / cfg.period = handled := by
          rcases h12 with h12 | ⟨h12, h13⟩
          · exact h12
          · dsimp only at h12 h13
            have := hok h12
            dsimp only at this
            omega
        simp only [result, shown]
        rw [h11, assemble_parts, h6, hw, h10, h13, variable_, Nat.mod_mod, Nat.mod_add_mod]

theorem calls_snoc (tr e : List Ev) : calls (tr ++ e) = calls tr ++ callsFrom (openFrom none tr) e := callsFrom_append none tr e

end Modm.SystemClock
