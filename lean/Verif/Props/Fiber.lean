import Verif.Model.Fiber
import Verif.Spec.RoundRobin
import Mathlib.Data.List.Nodup
import Mathlib.Data.List.Rotate
import Mathlib.Tactic.Common
/-
C17: the fiber scheduler is round-robin.
-/
set_option autoImplicit false
namespace Props.Fiber
open Modm.Fiber
open Spec.RoundRobin (Queue)

/-- the pointers lead from `a` through `l` to `b` -/
def Path (next : Nat → Option Nat) : Nat → List Nat → Nat → Prop
  | a, [], b => next a = some b
  | a, x :: l, b => next a = some x ∧ Path next x l b

theorem Path.snoc {next : Nat → Option Nat} : ∀ {l : List Nat} {a x b : Nat}, Path next a (l ++ [x]) b ↔ Path next a l x ∧ next x = some b
  | [], _, _, _ => by simp [Path]
  | y :: l, a, x, b => by simp [Path, Path.snoc (l := l), and_assoc]

theorem Path.congr {next next' : Nat → Option Nat} : ∀ {l : List Nat} {a b : Nat}, (∀ x ∈ a :: l, next' x = next x) → Path next a l b →
    Path next' a l b
  | [], a, _, h, hp => by rw [Path, h a (by simp)]; exact hp
  | x :: l, a, b, h, hp => by
    refine ⟨by rw [h a (by simp)]; exact hp.1, Path.congr (fun y hy => h y (List.mem_cons_of_mem _ hy)) hp.2⟩

/-- the last element of the ring -/
def final (a : Nat) : List Nat → Nat
  | [] => a
  | x :: l => final x l

theorem final_snoc (l : List Nat) (a x : Nat) : final a (l ++ [x]) = x := by
  induction l generalizing a with
  | nil => rfl
  | cons y l ih => exact ih y

theorem final_mem (l : List Nat) (a : Nat) : final a l ∈ a :: l := by
  induction l generalizing a with
  | nil => simp [final]
  | cons y l ih => exact List.mem_cons_of_mem _ (ih y)

/-- redirecting the last pointer -/
theorem Path.set_last {next : Nat → Option Nat} : ∀ {l : List Nat} {a b : Nat}, (a :: l).Nodup → Path next a l b → ∀ b' : Nat,
    Path (Function.update next (final a l) (some b')) a l b'
  | [], a, b, _, _, b' => by simp [Path, final]
  | x :: l, a, b, hn, hp, b' => by
    rw [List.nodup_cons] at hn
    refine ⟨?_, Path.set_last hn.2 hp.2 b'⟩
    have : a ≠ final x l := fun e => hn.1 (by rw [e]; exact final_mem l x)
    simp only [final]
    rw [Function.update_of_ne this]; exact hp.1

theorem Path.last {next : Nat → Option Nat} : ∀ {l : List Nat} {a b : Nat}, Path next a l b → next (final a l) = some b
  | [], _, _, h => h
  | x :: l, _, _, h => Path.last (l := l) (a := x) h.2

structure Inv (s : State) (q : Queue) : Prop where
  nodup : q.fibers.Nodup
  sched : ∀ t, s.scheduled t = decide (t ∈ q.fibers)
  ring : ∀ c l, q.fibers = c :: l → Path s.next c l c ∧ s.last = some (final c l)
  none : q.fibers = [] → s.last = none
  current : s.current = Spec.RoundRobin.now q
  running : q.running = true → q.fibers ≠ []

theorem init_inv (next : Nat → Option Nat) : Inv (State.init next) Spec.RoundRobin.empty :=
  ⟨by simp [Spec.RoundRobin.empty], by simp [State.init, Spec.RoundRobin.empty], by simp [Spec.RoundRobin.empty], fun _ => rfl, rfl,
    by simp [Spec.RoundRobin.empty]⟩

theorem add_inv {s : State} {q : Queue} (h : Inv s q) (t : Nat) :
    (startTask s t).1 = decide (t ∉ q.fibers) ∧ Inv (startTask s t).2 (Spec.RoundRobin.add q t) := by
  by_cases ht : t ∈ q.fibers
  · simp [startTask, h.sched, ht, Spec.RoundRobin.add]
    exact h
  · have h1 : s.scheduled t = false := by rw [h.sched]; simp [ht]
    have hq : Spec.RoundRobin.add q t = { q with fibers := q.fibers ++ [t] } := by simp [Spec.RoundRobin.add, ht]
    rw [startTask, if_neg (by simp [h1])]
    refine ⟨by simp [ht], ?_⟩
    rw [hq]
    have hsch : ∀ u, (attach s t).scheduled u = decide (u ∈ q.fibers ++ [t]) := by
      intro u
      simp only [attach]
      by_cases e : u = t
      · subst e; simp
      · rw [Function.update_of_ne e, h.sched]; simp [e]
    have hnd : (q.fibers ++ [t]).Nodup := by
      rw [List.nodup_append]
      exact ⟨h.nodup, by simp, by intro a ha b hb; simp at hb; subst hb; exact fun e => ht (e ▸ ha)⟩
    have hcur : s.current = Spec.RoundRobin.now { q with fibers := q.fibers ++ [t] } := by
      rw [h.current]
      simp only [Spec.RoundRobin.now]
      by_cases hr : q.running = true
      · have := h.running hr
        cases hf : q.fibers with
        | nil => exact absurd hf this
        | cons c l => simp
      · simp [hr]
    cases hf : q.fibers with
    | nil =>
      have hl : s.last = none := h.none hf
      have : add s t = addFirst (attach s t) t := by simp [add, hl]
      rw [this]
      rw [hf] at hsch hcur
      refine ⟨by simp, hsch, ?_, by simp, hcur, by simp⟩
      intro c l e
      simp at e
      obtain ⟨rfl, rfl⟩ := e
      exact ⟨by simp [Path, addFirst], rfl⟩
    | cons c l =>
      obtain ⟨hp, hl⟩ := h.ring c l hf
      have : add s t = runLast (attach s t) t (final c l) := by simp [add, hl]
      rw [this]
      have hn := h.nodup
      rw [hf] at hsch hnd hn ht hcur
      refine ⟨hnd, hsch, ?_, by simp, hcur, by simp⟩
      intro c' l' e
      simp only [List.cons_append, List.cons.injEq] at e
      obtain ⟨rfl, rfl⟩ := e
      have htf : t ≠ final c l := fun e => ht (by rw [e]; exact final_mem l c)
      refine ⟨?_, by rw [final_snoc]; rfl⟩
      rw [Path.snoc]
      constructor
      · simp only [runLast]
        refine Path.set_last hn (b := c) ?_ t
        refine Path.congr (fun x hx => ?_) hp
        have : x ≠ t := fun e => ht (by rw [← e]; exact hx)
        simp [attach, this]
      · simp only [runLast]
        rw [Function.update_of_ne htf, Function.update_self]
        exact hp.last

theorem yield_inv {s : State} {q : Queue} (h : Inv s q) : ∃ s', yield s = some s' ∧ Inv s' (Spec.RoundRobin.yield q) := by
  by_cases hr : q.running = true
  · cases hf : q.fibers with
    | nil => exact absurd hf (h.running hr)
    | cons c l =>
      obtain ⟨hp, hl⟩ := h.ring c l hf
      have hc : s.current = some c := by rw [h.current]; simp [Spec.RoundRobin.now, hr, hf]
      have hq : Spec.RoundRobin.yield q = ⟨l ++ [c], q.running⟩ := by simp [Spec.RoundRobin.yield, hr, hf]
      have hn := h.nodup
      rw [hf] at hn
      cases l with
      | nil =>
        have hnx : s.next c = some c := hp
        refine ⟨s, by simp [yield, hc, hnx], ?_⟩
        rw [hq]
        have : (⟨[] ++ [c], q.running⟩ : Queue) = q := by cases q; simp at hf; simp [hf]
        rw [this]; exact h
      | cons n l =>
        have hnx : s.next c = some n := hp.1
        have hne : n ≠ c := fun e => by simp [e] at hn
        refine ⟨jump (setLast s c) n, by simp [yield, hc, hnx, hne], ?_⟩
        rw [hq]
        refine ⟨?_, ?_, ?_, by simp, ?_, by simp⟩
        · exact (List.perm_append_singleton c (n :: l)).nodup_iff.2 hn
        · intro t
          simp only [jump, setLast, h.sched, hf]
          refine decide_eq_decide.2 ?_
          simp only [List.mem_cons, List.mem_append, List.not_mem_nil, or_false]; tauto
        · intro a m e
          simp only [List.cons_append, List.cons.injEq] at e
          obtain ⟨rfl, rfl⟩ := e
          refine ⟨?_, by rw [final_snoc]; rfl⟩
          rw [Path.snoc]
          exact ⟨hp.2, hnx⟩
        · simp [Spec.RoundRobin.now, hr, jump]
  · have hr' : q.running = false := by simpa using hr
    refine ⟨s, ?_, ?_⟩
    · have : s.current = none := by rw [h.current]; simp [Spec.RoundRobin.now, hr']
      simp [yield, this]
    · have : Spec.RoundRobin.yield q = q := by
        cases q with
        | mk f r => simp at hr'; subst hr'; rfl
      rw [this]; exact h

theorem unschedule_inv {s : State} {q : Queue} (h : Inv s q) (hr : q.running = true) :
    ∃ s', unschedule s = some s' ∧ Inv s' (Spec.RoundRobin.finish q) := by
  cases hf : q.fibers with
  | nil => exact absurd hf (h.running hr)
  | cons c l =>
    obtain ⟨hp, hl⟩ := h.ring c l hf
    have hc : s.current = some c := by rw [h.current]; simp [Spec.RoundRobin.now, hr, hf]
    have hn := h.nodup
    rw [hf] at hn
    rw [List.nodup_cons] at hn
    have hsch : ∀ t, Function.update s.scheduled c false t = decide (t ∈ l) := by
      intro t
      by_cases e : t = c
      · subst e; simp [hn.1]
      · rw [Function.update_of_ne e, h.sched, hf]; simp [e]
    cases l with
    | nil =>
      have hll : s.last = some c := hl
      refine ⟨_, by simp [unschedule, hc, removeCurrent, hll, leave, detach, dropLast]; rfl, ?_⟩
      simp only [Spec.RoundRobin.finish, hf]
      exact ⟨by simp, hsch, by simp, fun _ => rfl, by simp [Spec.RoundRobin.now], by simp⟩
    | cons n l =>
      have hnx : s.next c = some n := hp.1
      have hfin : final n l ≠ c := fun e => hn.1 (by rw [← e]; exact final_mem l n)
      have hll : s.last = some (final n l) := hl
      refine ⟨jump (detach (bypass s c (final n l)) c) n, ?_, ?_⟩
      · simp only [unschedule, hc, Option.bind_some, removeCurrent, hll, Option.some.injEq, hfin, if_false, Option.map_some, hnx]
        simp [leave, detach, bypass, hll]
      · simp only [Spec.RoundRobin.finish, hf, List.tail_cons]
        refine ⟨hn.2, hsch, ?_, by simp, by simp [Spec.RoundRobin.now, jump], by simp⟩
        intro a m e
        simp only [List.cons.injEq] at e
        obtain ⟨rfl, rfl⟩ := e
        refine ⟨?_, hll⟩
        simp only [jump, detach, bypass]
        refine Path.congr (next := Function.update s.next (final n l) (s.next c)) (fun x hx => ?_) ?_
        · rw [Function.update_of_ne (fun e => hn.1 (by rw [← e]; exact hx))]
        · rw [hnx]
          exact Path.set_last hn.2 hp.2 n

theorem start_inv {s : State} {q : Queue} (h : Inv s q) (hr : q.running = false) :
    ∃ s', start s = some (!q.fibers.isEmpty, s') ∧ Inv s' (Spec.RoundRobin.start q) := by
  cases hf : q.fibers with
  | nil =>
    refine ⟨s, by simp [start, h.none hf], ?_⟩
    have : Spec.RoundRobin.start q = q := by cases q; simp at hf hr; simp [Spec.RoundRobin.start, hf, hr]
    rw [this]; exact h
  | cons c l =>
    obtain ⟨hp, hl⟩ := h.ring c l hf
    refine ⟨jump s c, by simp [start, hl, hp.last], h.nodup, h.sched, h.ring, h.none, ?_, ?_⟩
    · simp [jump, Spec.RoundRobin.now, Spec.RoundRobin.start, hf]
    · intro _; simp [Spec.RoundRobin.start, hf]

/-! ### the claims -/

/-- histories: fibers are started from anywhere, the running fiber yields or ends, the main program starts the scheduler; `queue` is
the round-robin queue -/
inductive Reach : State → Queue → Prop
  | init (next : Nat → Option Nat) : Reach (State.init next) Spec.RoundRobin.empty
  | add (s : State) (q : Queue) (t : Nat) : Reach s q → Reach (startTask s t).2 (Spec.RoundRobin.add q t)
  | yield (s s' : State) (q : Queue) : Reach s q → yield s = some s' → Reach s' (Spec.RoundRobin.yield q)
  | finish (s s' : State) (q : Queue) : Reach s q → q.running = true → unschedule s = some s' → Reach s' (Spec.RoundRobin.finish q)
  | start (s s' : State) (q : Queue) (b : Bool) : Reach s q → q.running = false → start s = some (b, s') →
      Reach s' (Spec.RoundRobin.start q)

theorem reach_inv {s : State} {q : Queue} (h : Reach s q) : Inv s q := by
  induction h with
  | init next => exact init_inv next
  | add s q t _ ih => exact (add_inv ih t).2
  | yield s s' q _ h ih =>
    obtain ⟨a, h1, h2⟩ := yield_inv ih
    rw [h] at h1; cases h1; exact h2
  | finish s s' q _ hr h ih =>
    obtain ⟨a, h1, h2⟩ := unschedule_inv ih hr
    rw [h] at h1; cases h1; exact h2
  | start s s' q b _ hr h ih =>
    obtain ⟨a, h1, h2⟩ := start_inv ih hr
    rw [h] at h1; cases h1; exact h2

/-- C17: in every reachable state the scheduler agrees with the round-robin queue: the first fiber of the queue is running, exactly the
fibers of the queue are attached, and starting an attached fiber is refused -/
theorem C17_agrees_with_queue {s : State} {q : Queue} (h : Reach s q) :
    s.current = Spec.RoundRobin.now q ∧ (∀ t, s.scheduled t = true ↔ t ∈ q.fibers) ∧ q.fibers.Nodup ∧
    ∀ t, (startTask s t).1 = decide (t ∉ q.fibers) := by
  have hI := reach_inv h
  exact ⟨hI.current, fun t => by rw [hI.sched]; simp, hI.nodup, fun t => (add_inv hI t).1⟩

/-- C17: no operation ever uses a null pointer: yielding always works, ending the running fiber always works, and the main program
starts the fibers exactly if there are any -/
theorem C17_runs {s : State} {q : Queue} (h : Reach s q) :
    (∃ s', yield s = some s' ∧ Reach s' (Spec.RoundRobin.yield q)) ∧
    (q.running = true → ∃ s', unschedule s = some s' ∧ Reach s' (Spec.RoundRobin.finish q)) ∧
    (q.running = false → ∃ s', start s = some (!q.fibers.isEmpty, s') ∧ Reach s' (Spec.RoundRobin.start q)) := by
  have hI := reach_inv h
  refine ⟨?_, ?_, ?_⟩
  · obtain ⟨s', h1, -⟩ := yield_inv hI
    exact ⟨s', h1, .yield s s' q h h1⟩
  · intro hr
    obtain ⟨s', h1, -⟩ := unschedule_inv hI hr
    exact ⟨s', h1, .finish s s' q h hr h1⟩
  · intro hr
    obtain ⟨s', h1, -⟩ := start_inv hI hr
    exact ⟨s', h1, .start s s' q _ h hr h1⟩

/-- `k` yields in a row (by whichever fiber is running) -/
def yields : Nat → State → Option State
  | 0, s => some s
  | k + 1, s => (yield s).bind (yields k)

theorem yields_queue : ∀ (k : Nat) (s : State) (l : List Nat), l ≠ [] → Reach s ⟨l, true⟩ → ∃ s', yields k s = some s' ∧ Reach s' ⟨l.rotate k, true⟩
  | 0, s, l, _, h => ⟨s, rfl, by simpa using h⟩
  | k + 1, s, [], hl, _ => absurd rfl hl
  | k + 1, s, c :: l, _, h => by
    obtain ⟨s1, h1, h2⟩ := (C17_runs h).1
    obtain ⟨s2, h3, h4⟩ := yields_queue k s1 (l ++ [c]) (by simp) h2
    refine ⟨s2, by simp [yields, h1, h3], ?_⟩
    rw [List.rotate_cons_succ]; exact h4

/-- C17: as long as no fiber starts or ends, the fibers run in turn: after `k` yields the running fiber is number `k` of the ring,
counted modulo their number, so that every fiber runs exactly once in each round -/
theorem C17_round_robin {s : State} {l : List Nat} (h : Reach s ⟨l, true⟩) (k : Nat) (hk : k % l.length < l.length) :
    ∃ s', yields k s = some s' ∧ s'.current = some (l[k % l.length]) := by
  have hl : l ≠ [] := by intro e; subst e; simp at hk
  obtain ⟨s', h1, h2⟩ := yields_queue k s l hl h
  refine ⟨s', h1, ?_⟩
  rw [(C17_agrees_with_queue h2).1]
  simp only [Spec.RoundRobin.now, if_true]
  rw [← List.rotate_mod, List.head?_rotate hk, List.getElem?_eq_getElem hk]

/-- three fibers, two of which are started before the scheduler and one while it runs; the first ends and is started again -/
example (next : Nat → Option Nat) : ∃ s, Reach s ⟨[9, 7, 5], true⟩ := by
  have h1 := Reach.add _ _ 5 (Reach.add _ _ 7 (.init next))
  obtain ⟨s2, -, h2⟩ := (C17_runs h1).2.2 (by decide)
  have h3 := Reach.add _ _ 9 h2
  obtain ⟨s4, -, h4⟩ := (C17_runs h3).2.1 (by decide)
  have h5 := Reach.add _ _ 7 h4
  obtain ⟨s6, -, h6⟩ := (C17_runs h5).1
  obtain ⟨s7, -, h7⟩ := (C17_runs h6).1
  obtain ⟨s8, -, h8⟩ := (C17_runs h7).1
  obtain ⟨s9, -, h9⟩ := (C17_runs h8).1
  have h10 : Reach s9 ⟨[9, 7, 5], true⟩ := h9
  obtain ⟨s11, -, h11⟩ := (C17_runs h10).1
  obtain ⟨s12, -, h12⟩ := (C17_runs h11).2.1 (by decide)
  have h13 := Reach.add _ _ 7 h12
  obtain ⟨s14, -, h14⟩ := (C17_runs h13).1
  exact ⟨s14, h14⟩

end Props.Fiber
