import Verif.Props.DispatcherTime
import Mathlib.Data.Multiset.DershowitzManna

set_option autoImplicit false

/-!
# C128: `update` returns

The loop of `handleWaitingMessages` also visits what the components order while it runs.
-/

namespace Props.Dispatcher

open Modm.Dispatcher Modm.Spec.Dispatcher

variable {σ : Type} {a : App σ} {cfg : Config} {fuel : ℕ} {steps : List Step} {x : σ} {s : State σ}

/-- Calls and events which components order while they handle something are of lower rank than what they handle. -/
structure Ranked (a : App σ) (r : Header → ℕ) : Prop where
  deliver : ∀ x h p, ∀ c ∈ (a.deliver x h p).2.2, (message c).1.kind = .request → r (message c).1 < r h
  callback : ∀ x k h p, ∀ c ∈ (a.callback x k h p).2, (message c).1.kind = .request → r (message c).1 < r h
  timeout : ∀ h, r (timeoutOf h) ≤ r h

private def weight (r : Header → ℕ) (e : Entry) : ℕ :=
  2 * r e.header + if e.phase = .transmissionPending then 1 else 0

private def weights (r : Header → ℕ) (l : List Entry) : Multiset ℕ := ↑(l.map (weight r))

private theorem weights_append (r : Header → ℕ) (l m : List Entry) : weights r (l ++ m) = weights r l + weights r m := by
  simp [weights]

private theorem weights_cons (r : Header → ℕ) (e : Entry) (l : List Entry) : weights r (e :: l) = weights r l + {weight r e} := by
  rw [weights, List.map_cons, ← Multiset.cons_coe, ← Multiset.singleton_add, add_comm]; rfl

private theorem weights_messages {r : Header → ℕ} {cs : List Command} {n : ℕ}
    (h : ∀ c ∈ cs, (message c).1.kind = .request → r (message c).1 < n) : ∀ y ∈ weights r (messages cs), y < 2 * n := by
  intro y hy
  simp only [weights, messages, List.map_map, Multiset.mem_coe, List.mem_map, List.mem_filter, Bool.not_eq_eq_eq_not,
    Bool.not_true] at hy
  obtain ⟨c, ⟨hc, hr⟩, rfl⟩ := hy
  have hk : (message c).1.kind = .request := by cases c <;> simp [isResponse, message] at hr ⊢
  have := h c hc hk
  simp only [Function.comp, weight, newEntry, entry]
  split <;> omega

private theorem lt_of_parts {M N X Y : Multiset ℕ} {w : ℕ} (hM : M = X + Y) (hN : N = X + {w}) (hY : ∀ y ∈ Y, y < w) :
    Multiset.IsDershowitzMannaLT M N :=
  ⟨X, Y, {w}, by simp, hM, hN, fun y hy => ⟨w, by simp, hY y hy⟩⟩

private theorem weights_eraseIdx (r : Header → ℕ) {l : List Entry} {i : ℕ} {q : Entry} (h : l[i]? = some q) :
    weights r l = weights r (l.eraseIdx i) + {weight r q} := by
  induction l generalizing i with
  | nil => simp at h
  | cons e l ih =>
    cases i with
    | zero =>
      simp only [List.getElem?_cons_zero, Option.some.injEq] at h
      subst h
      rw [weights_cons, List.eraseIdx_cons_zero]
    | succ i =>
      rw [List.getElem?_cons_succ] at h
      rw [List.eraseIdx_cons_succ, weights_cons, weights_cons, ih h]
      exact add_right_comm _ _ _

private theorem visit_lt {r : Header → ℕ} (hr : Ranked a r) {now : ℕ} {s : State σ} {e : Entry} {l : List Entry}
    (hl : s.after = e :: l) :
    Multiset.IsDershowitzMannaLT (weights r (visit a cfg now e s).after) (weights r s.after) := by
  obtain ⟨cs, o1, o2, kept, l', x', hsh, hv⟩ := visit_shape a cfg now s e l hl
  rw [hv, hl]
  dsimp only
  rw [weights_append, weights_cons]
  have hw : ∀ y, y < 2 * r e.header → y < weight r e := fun y hy => by simp only [weight]; omega
  have m0 : weights r (messages []) = 0 := rfl
  cases hsh with
  | event hp hd => exact lt_of_parts rfl rfl fun y hy => hw y (weights_messages (hr.deliver _ _ _) y hy)
  | innerCall k hp hd hv hk hc =>
    rw [weights_cons, add_assoc]
    refine lt_of_parts rfl rfl fun y hy => ?_
    rcases Multiset.mem_add.mp hy with hy | hy
    · rw [Multiset.mem_singleton] at hy
      subst hy
      simp [weight, hp]
    · exact hw y (weights_messages (hr.deliver _ _ _) y hy)
  | innerDefault hp hd hv hk hc => exact lt_of_parts rfl rfl fun y hy => hw y (weights_messages (hr.deliver _ _ _) y hy)
  | innerAnswer i k q hp hd hv hk hi hq hc =>
    refine ⟨weights r (l.eraseIdx i), _, {weight r q} + {weight r e}, by simp, rfl, ?_, fun y hy => ⟨weight r e, by simp, ?_⟩⟩
    · rw [weights_eraseIdx r hi, add_assoc]
    · exact hw y (weights_messages (hr.callback _ _ _ _) y hy)
  | innerDrop i q hp hd hv hk hi hq hc =>
    refine ⟨weights r (l.eraseIdx i), 0, {weight r q} + {weight r e}, by simp, rfl, ?_, fun y hy => by simp at hy⟩
    rw [weights_eraseIdx r hi, add_assoc]
  | innerNone hp hd hv hk => exact lt_of_parts rfl rfl fun y hy => by rw [m0] at hy; simp at hy
  | transmit hp hd hv => exact lt_of_parts rfl rfl fun y hy => by rw [m0] at hy; simp at hy
  | giveUp k hp ht hn hc =>
    refine lt_of_parts rfl rfl fun y hy => hw y ?_
    have := weights_messages (hr.callback _ _ _ _) y hy
    have := hr.timeout e.header
    simp only [timeoutOf] at this
    omega
  | drop hp ht hn hc => exact lt_of_parts rfl rfl fun y hy => by rw [m0] at hy; simp at hy
  | retransmit hp ht hn => exact lt_of_parts rfl rfl fun y hy => by rw [m0] at hy; simp at hy
  | wait hp ht => exact lt_of_parts rfl rfl fun y hy => by rw [m0] at hy; simp at hy
  | idle hp => exact lt_of_parts rfl rfl fun y hy => by rw [m0] at hy; simp at hy

private theorem visitAll_ends {r : Header → ℕ} (hr : Ranked a r) (cfg : Config) (now : ℕ) (s : State σ) :
    ∃ fuel s', visitAll a cfg now fuel s = some s' := by
  have hwf : WellFounded (Multiset.IsDershowitzMannaLT : Multiset ℕ → Multiset ℕ → Prop) :=
    Multiset.wellFounded_isDershowitzMannaLT
  obtain ⟨M, hM⟩ : ∃ M, M = weights r s.after := ⟨_, rfl⟩
  induction M using hwf.induction generalizing s with
  | _ M ih =>
    cases hl : s.after with
    | nil => exact ⟨1, s, by rw [visitAll, hl]⟩
    | cons e l =>
      obtain ⟨fuel, s', h⟩ := ih _ (hM ▸ visit_lt (cfg := cfg) hr (now := now) hl) (visit a cfg now e s) rfl
      exact ⟨fuel + 1, s', by rw [visitAll, hl]; exact h⟩

private theorem visitAll_mono {now m n : ℕ} {s s' : State σ} (h : visitAll a cfg now m s = some s') (hn : m ≤ n) :
    visitAll a cfg now n s = some s' := by
  induction m generalizing s n with
  | zero => exact absurd h (by simp [visitAll])
  | succ m ih =>
    obtain ⟨n, rfl⟩ : ∃ n', n = n' + 1 := ⟨n - 1, by omega⟩
    rw [visitAll] at h ⊢
    cases hl : s.after with
    | nil => rw [hl] at h; exact h
    | cons e l => rw [hl] at h; exact ih h (by omega)

private theorem run_mono {m n : ℕ} {s s' : State σ} (h : run a cfg m s steps = some s') (hn : m ≤ n) :
    run a cfg n s steps = some s' := by
  induction steps generalizing s with
  | nil => exact h
  | cons y ys ih =>
    rw [run] at h ⊢
    cases hy : step a cfg m s y with
    | none => rw [hy] at h; exact absurd h (by simp)
    | some u =>
      rw [hy] at h
      have : step a cfg n s y = some u := by
        cases y with
        | command c => exact hy
        | update now packets => exact visitAll_mono hy hn
      rw [this]
      exact ih h

/-- **C128.**  If calls and events ordered by handlers are always of lower rank than what is handled, `update` returns,
whatever packets arrive and whatever was ordered. -/
theorem C128_returns {r : Header → ℕ} (hr : Ranked a r) (cfg : Config) (now : ℕ) (packets : List (Header × Payload)) (s : State σ) :
    ∃ fuel s', update a cfg now fuel packets s = some s' :=
  visitAll_ends hr cfg now _

/-- **C128.**  Hence every sequence of steps has a result. -/
theorem C128_runs {r : Header → ℕ} (hr : Ranked a r) (cfg : Config) (x : σ) (steps : List Step) :
    ∃ fuel s, run a cfg fuel (init x) steps = some s := by
  obtain ⟨s0, hs0⟩ : ∃ s0, s0 = init x := ⟨_, rfl⟩
  rw [← hs0]
  clear hs0
  induction steps generalizing s0 with
  | nil => exact ⟨0, s0, rfl⟩
  | cons y ys ih =>
    obtain ⟨f1, s1, h1⟩ : ∃ f1 s1, step a cfg f1 s0 y = some s1 := by
      cases y with
      | command c => exact ⟨0, _, rfl⟩
      | update now packets => exact C128_returns hr cfg now packets s0
    obtain ⟨f2, s2, h2⟩ := ih s1
    refine ⟨max f1 f2, s2, ?_⟩
    have h1' : run a cfg f1 s0 [y] = some s1 := by rw [run, h1]; rfl
    have h1'' := run_mono h1' (le_max_left f1 f2)
    rw [run] at h1'' ⊢
    cases hy : step a cfg (max f1 f2) s0 y with
    | none => rw [hy] at h1''; exact absurd h1'' (by simp)
    | some u =>
      rw [hy] at h1''
      have hu : some u = some s1 := h1''
      cases hu
      exact run_mono h2 (le_max_right f1 f2)

/-- A component which on every call of its action 1 calls this action. -/
example : Ranked demo (fun h => if h.destination = 0 ∧ h.packet = 6 then 1 else 0) := by
  refine ⟨fun x h p c hc hk => ?_, fun x k h p c hc => by simp [demo] at hc, fun h => le_refl _⟩
  simp only [demo] at hc
  split at hc
  · rw [List.mem_singleton] at hc; subst hc; simp [message] at hk
  · split at hc
    · rename_i h6
      rw [List.mem_singleton] at hc; subst hc; simp [message, h6]
    · simp at hc

def restless : App Unit where
  deliver _ h p := ((), true, if h.kind = .request ∧ h.packet = 1 then [.callAction 1 1 1 p none] else [])
  available b := b == 1
  callback _ _ _ _ := ((), [])

/-- **C128.**  The condition is needed: a component which calls its own action whenever it is called keeps `update` busy for
ever. -/
theorem C128_counterexample : ∀ fuel, run restless ⟨100, 200⟩ fuel (init ()) [.command (.callAction 1 1 1 [] none), .update 0 []] = none := by
  intro fuel
  have key : ∀ fuel log, visitAll restless ⟨100, 200⟩ 0 fuel ⟨[], [entry ⟨.request, false, 1, 1, 1⟩ [] none], (), log⟩ = none := by
    intro fuel
    induction fuel with
    | zero => intro log; rfl
    | succ fuel ih => intro log; exact ih _
  simp only [run, step, update, List.foldl_nil, handleWaitingMessages, Option.bind_some]
  have := key fuel [.issued (.callAction 1 1 1 [] none)]
  rw [show (⟨[], (execute (init ()) (.callAction 1 1 1 [] none)).before ++ (execute (init ()) (.callAction 1 1 1 [] none)).after,
    (execute (init ()) (.callAction 1 1 1 [] none)).app, (execute (init ()) (.callAction 1 1 1 [] none)).log⟩ : State Unit) =
    ⟨[], [entry ⟨.request, false, 1, 1, 1⟩ [] none], (), [.issued (.callAction 1 1 1 [] none)]⟩ from rfl, this]
  rfl

end Props.Dispatcher
