import Verif.Model.Scheduler
import Verif.Spec.Tasks
import Mathlib.Data.List.Nodup
import Mathlib.Data.List.Basic
import Mathlib.Data.List.Perm.Subperm
import Mathlib.Tactic.Common
import Mathlib.Order.Basic
import Mathlib.Algebra.Order.Group.Nat
/-
C15, C59: `modm::Scheduler`.
-/
set_option autoImplicit false
namespace Props.Scheduler
open Modm.Scheduler
open Spec.Tasks

/-! ### the ready list -/

/-- `l` is the chain of pointers starting at `o` -/
def Chain (next : Nat → Option Nat) : Option Nat → List Nat → Prop
  | o, [] => o = none
  | o, i :: l => o = some i ∧ Chain next (next i) l

theorem Chain.congr {next next' : Nat → Option Nat} : ∀ {l : List Nat} {o : Option Nat}, (∀ i ∈ l, next i = next' i) →
    Chain next o l → Chain next' o l
  | [], _, _, h => h
  | i :: l, o, he, h => ⟨h.1, by
      have := Chain.congr (l := l) (fun j hj => he j (List.mem_cons_of_mem _ hj)) h.2
      rwa [he i (by simp)] at this⟩

/-- the place of `i` in a list -/
def ins (p : Nat → Nat) (l : List Nat) (i : Nat) : List Nat :=
  l.takeWhile (fun x => decide (p i ≤ p x)) ++ i :: l.dropWhile (fun x => decide (p i ≤ p x))

theorem walk_ok (s : Sched) (i : Nat) : ∀ (l : List Nat) (a fuel : Nat), Chain s.nextReady (s.nextReady a) l → l.length < fuel →
    i ∉ a :: l → (a :: l).Nodup → (s.item i).prio ≤ (s.item a).prio →
    ∃ s', walk s i fuel a = some s' ∧ s'.item = s.item ∧ s'.count = s.count ∧ s'.readyList = s.readyList ∧ s'.cur = s.cur ∧
      s'.log = s.log ∧ s'.script = s.script ∧ (∀ j, j ∉ a :: l → j ≠ i → s'.nextReady j = s.nextReady j) ∧
      Chain s'.nextReady (some a) (ins (fun j => (s.item j).prio) (a :: l) i)
  | [], a, fuel + 1, hc, _, hi, _, hp => by
    have hn : s.nextReady a = none := hc
    refine ⟨link s i a, by simp [walk, hn], rfl, rfl, rfl, rfl, rfl, rfl, ?_, ?_⟩
    · intro j hj hji
      simp at hj
      simp [link, hj, hji]
    · have hia : i ≠ a := by simpa using hi
      simp [ins, hp, link, Chain, hn, hia]
  | b :: l, a, fuel + 1, hc, hf, hi, hnd, hp => by
    have hn : s.nextReady a = some b := hc.1
    have hia : i ≠ a := fun e => hi (by simp [e])
    have hnd' := List.nodup_cons.1 hnd
    by_cases hb : (s.item b).prio < (s.item i).prio
    · refine ⟨link s i a, by simp [walk, hn, hb], rfl, rfl, rfl, rfl, rfl, rfl, ?_, ?_⟩
      · intro j hj hji
        have : j ≠ a := fun e => hj (by simp [e])
        simp [link, this, hji]
      · simp only [ins, List.takeWhile_cons, List.dropWhile_cons, hp, decide_true, if_true, show ¬ (s.item i).prio ≤ (s.item b).prio by omega,
          decide_false, if_false, List.cons_append, List.nil_append, Bool.false_eq_true]
        refine ⟨rfl, by simp [link], ?_⟩
        simp only [link]
        rw [Function.update_of_ne hia, Function.update_self, hn]
        refine ⟨rfl, ?_⟩
        have h : Chain (Function.update (Function.update s.nextReady i (some b)) a (some i)) (s.nextReady b) l := by
          refine Chain.congr ?_ hc.2
          intro j hj
          have h1 : j ≠ a := fun e => hnd'.1 (by rw [← e]; exact List.mem_cons_of_mem _ hj)
          have h2 : j ≠ i := fun e => hi (by rw [← e]; exact List.mem_cons_of_mem _ (List.mem_cons_of_mem _ hj))
          rw [Function.update_of_ne h1, Function.update_of_ne h2]
        have h1 : b ≠ a := fun e => hnd'.1 (by simp [e])
        have h2 : b ≠ i := fun e => hi (by simp [e])
        rw [Function.update_of_ne h1, Function.update_of_ne h2]
        exact h
    · obtain ⟨s', h1, h2, h3, h4, h5, h6, h7, h8, h9⟩ := walk_ok s i l b fuel hc.2 (by simpa using hf)
        (fun h => hi (List.mem_cons_of_mem _ h)) hnd'.2 (by omega)
      refine ⟨s', by simp [walk, hn, hb, h1], h2, h3, h4, h5, h6, h7, ?_, ?_⟩
      · intro j hj hji
        exact h8 j (fun h => hj (List.mem_cons_of_mem _ h)) hji
      · have : ins (fun j => (s.item j).prio) (a :: b :: l) i = a :: ins (fun j => (s.item j).prio) (b :: l) i := by
          simp [ins, hp]
        rw [this]
        refine ⟨rfl, ?_⟩
        rw [h8 a hnd'.1 (Ne.symm hia), hn]
        exact h9

theorem insertReady_ok (s : Sched) (i : Nat) (l : List Nat) (fuel : Nat) (hc : Chain s.nextReady s.readyList l) (hf : l.length ≤ fuel)
    (hi : i ∉ l) (hnd : l.Nodup) : ∃ s', insertReady fuel s i = some s' ∧ s'.item = s.item ∧ s'.count = s.count ∧ s'.cur = s.cur ∧
      s'.log = s.log ∧ s'.script = s.script ∧ Chain s'.nextReady s'.readyList (ins (fun j => (s.item j).prio) l i) := by
  cases l with
  | nil =>
    have hn : s.readyList = none := hc
    exact ⟨linkFront s i, by simp [insertReady, hn], rfl, rfl, rfl, rfl, rfl, by simp [ins, Chain, linkFront, hn]⟩
  | cons a l =>
    have hn : s.readyList = some a := hc.1
    by_cases ha : (s.item a).prio < (s.item i).prio
    · refine ⟨linkFront s i, by simp [insertReady, hn, ha], rfl, rfl, rfl, rfl, rfl, ?_⟩
      simp only [ins, List.takeWhile_cons, List.dropWhile_cons, show ¬ (s.item i).prio ≤ (s.item a).prio by omega,
          decide_false, List.nil_append, Bool.false_eq_true, if_false]
      refine ⟨rfl, ?_⟩
      simp only [linkFront, Function.update_self]
      refine Chain.congr ?_ hc
      intro j hj
      rw [Function.update_of_ne (fun e => hi (by rw [← e]; exact hj))]
    · obtain ⟨s', h1, h2, h3, h4, h5, h6, h7, -, h9⟩ := walk_ok s i l a fuel hc.2 (by simp at hf; omega) hi hnd (by omega)
      refine ⟨s', by simp [insertReady, hn, ha, h1], h2, h3, h5, h6, h7, ?_⟩
      rw [h4, hn]; exact h9

theorem mem_ins (p : Nat → Nat) (l : List Nat) (i j : Nat) : j ∈ ins p l i ↔ j = i ∨ j ∈ l := by
  have : j ∈ l ↔ j ∈ l.takeWhile (fun x => decide (p i ≤ p x)) ∨ j ∈ l.dropWhile (fun x => decide (p i ≤ p x)) := by
    rw [← List.mem_append, List.takeWhile_append_dropWhile]
  rw [this]
  simp only [ins, List.mem_append, List.mem_cons]
  tauto

theorem ins_perm (p : Nat → Nat) (l : List Nat) (i : Nat) : (ins p l i).Perm (i :: l) := by
  have h := List.perm_middle (a := i) (l₁ := l.takeWhile (fun x => decide (p i ≤ p x))) (l₂ := l.dropWhile (fun x => decide (p i ≤ p x)))
  rwa [List.takeWhile_append_dropWhile] at h

theorem sweep_ok (fuel : Nat) : ∀ (L : List Nat) (s : Sched) (l : List Nat), Chain s.nextReady s.readyList l → L.Nodup → l.Nodup →
    (∀ i ∈ L, lowered (s.item i) = 0 → i ∉ l) → l.length + L.length ≤ fuel →
    ∃ s', sweep fuel L s = some s' ∧ s'.count = s.count ∧ s'.cur = s.cur ∧ s'.log = s.log ∧ s'.script = s.script ∧
      (∀ i, s'.item i = if i ∈ L then stepped (s.item i) else s.item i) ∧
      Chain s'.nextReady s'.readyList ((L.filter fun i => decide (lowered (s.item i) = 0)).foldl (ins fun j => (s.item j).prio) l)
  | [], s, l, hc, _, _, _, _ => ⟨s, rfl, rfl, rfl, rfl, rfl, fun i => by simp, by simpa using hc⟩
  | i :: L, s, l, hc, hL, hl, hd, hf => by
    have hL' := List.nodup_cons.1 hL
    have hpr : ∀ j, ((setItem s i).item j).prio = (s.item j).prio := by
      intro j
      simp only [setItem]
      by_cases e : j = i
      · subst e; simp [stepped]
      · simp [e]
    have hit : ∀ j, j ∈ L → (setItem s i).item j = s.item j := by
      intro j hj
      have : j ≠ i := fun e => hL'.1 (by rw [← e]; exact hj)
      simp [setItem, this]
    have key : ∀ (s1 : Sched) (l' : List Nat), s1.item = (setItem s i).item → s1.count = s.count → s1.cur = s.cur → s1.log = s.log →
        s1.script = s.script → Chain s1.nextReady s1.readyList l' → l'.Nodup → (∀ j ∈ L, lowered (s.item j) = 0 → j ∉ l') → l'.length + L.length ≤ fuel →
        ∃ s', sweep fuel L s1 = some s' ∧ s'.count = s.count ∧ s'.cur = s.cur ∧ s'.log = s.log ∧ s'.script = s.script ∧
        (∀ j, s'.item j = if j ∈ i :: L then stepped (s.item j) else s.item j) ∧
        Chain s'.nextReady s'.readyList ((L.filter fun j => decide (lowered (s.item j) = 0)).foldl (ins fun j => (s.item j).prio) l') := by
      intro s1 l' h1 h2 h3 h4 h5 h6 h7 h8 h9
      obtain ⟨s', g1, g2, g3, g4, g5, g6, g7⟩ := sweep_ok fuel L s1 l' h6 hL'.2 h7
        (fun j hj h => h8 j hj (by rw [h1, hit j hj] at h; exact h)) h9
      refine ⟨s', g1, g2.trans h2, g3.trans h3, g4.trans h4, g5.trans h5, ?_, ?_⟩
      · intro j
        rw [g6 j, h1]
        by_cases e : j = i
        · subst e
          simp [hL'.1, setItem]
        · by_cases hj : j ∈ L
          · simp [hj, hit j hj]
          · simp [hj, e, setItem]
      · have e1 : (L.filter fun j => decide (lowered (s1.item j) = 0)) = L.filter fun j => decide (lowered (s.item j) = 0) := by
          refine List.filter_congr fun j hj => ?_
          rw [h1, hit j hj]
        have e2 : (fun j => (s1.item j).prio) = fun j => (s.item j).prio := by funext j; rw [h1, hpr]
        rw [e1, e2] at g7
        exact g7
    by_cases h0 : lowered (s.item i) = 0
    · have hil : i ∉ l := hd i (by simp) h0
      obtain ⟨s1, k1, k2, k3, k4, k5, k6, k7⟩ := insertReady_ok (setItem s i) i l fuel hc (by simp at hf; omega) hil hl
      have e2 : (fun j => ((setItem s i).item j).prio) = fun j => (s.item j).prio := by funext j; rw [hpr]
      rw [e2] at k7
      obtain ⟨s', g⟩ := key s1 _ k2 k3 k4 k5 k6 k7 ((ins_perm _ l i).nodup_iff.2 (List.nodup_cons.2 ⟨hil, hl⟩))
        (fun j hj hj0 h => by
          rcases (mem_ins _ l i j).1 h with rfl | h
          · exact hL'.1 hj
          · exact hd j (List.mem_cons_of_mem _ hj) hj0 h)
        (by rw [(ins_perm _ l i).length_eq]; simp at hf ⊢; omega)
      refine ⟨s', ?_, ?_⟩
      · simp only [sweep, update, if_pos h0, k1, Option.bind_some]; exact g.1
      · rw [List.filter_cons_of_pos (by simp [h0]), List.foldl_cons]; exact g.2
    · obtain ⟨s', g⟩ := key (setItem s i) l rfl rfl rfl rfl rfl hc hl (fun j hj => hd j (List.mem_cons_of_mem _ hj)) (by simp at hf; omega)
      refine ⟨s', ?_, ?_⟩
      · simp only [sweep, update, if_neg h0, Option.bind_some]; exact g.1
      · rw [List.filter_cons_of_neg (by simp [h0])]; exact g.2

/-! ### running the ready tasks -/

/-- the events of running the tasks of a list one after the other -/
def runs (l : List Nat) : List Event := l.flatMap fun i => [.start i, .finish i]

theorem drain_ok (fuel : Nat) : ∀ (l : List Nat) (s : Sched) (n : Nat), Chain s.nextReady s.readyList l → 2 * l.length + 1 ≤ n → s.cur = 0 →
    s.script = [] → (∀ i ∈ l, 0 < (s.item i).prio) →
    ∃ s', exec fuel n s [.drain] = some s' ∧ s'.item = s.item ∧ s'.count = s.count ∧ s'.cur = 0 ∧ s'.script = [] ∧ s'.readyList = none ∧
      s'.log = s.log ++ runs l
  | [], s, n + 1, hc, _, h0, hs, _ => by
    have hn : s.readyList = none := hc
    exact ⟨s, by simp [exec, step, hn], rfl, rfl, h0, hs, hn, by simp [runs]⟩
  | i :: l, s, n + 2, hc, hf, h0, hs, hp => by
    have hn : s.readyList = some i := hc.1
    have hi : 0 < (s.item i).prio := hp i (by simp)
    obtain ⟨s', g1, g2, g3, g4, g5, g6, g7⟩ := drain_ok fuel l (end' (begin' s i) i) n (by simpa [end', begin'] using hc.2)
      (by simp at hf; omega) rfl (by simp [end', begin', hs]) (fun j hj => hp j (List.mem_cons_of_mem _ hj))
    refine ⟨s', ?_, g2, g3, g4, g5, g6, ?_⟩
    · simp [exec, step, hn, h0, hi, hs, g1]
    · rw [g7]; simp [end', begin', runs]

/-! ### the order of the runs -/

/-- `i` runs before `j` -/
def Before (p : Nat → Nat) (i j : Nat) : Prop := p j < p i ∨ (p i = p j ∧ j < i)

theorem takeWhile_le (p : Nat → Nat) (l : List Nat) (i j : Nat) (h : j ∈ l.takeWhile fun x => decide (p i ≤ p x)) : p i ≤ p j := by
  induction l with
  | nil => simp at h
  | cons a l ih =>
    rw [List.takeWhile_cons] at h
    by_cases ha : p i ≤ p a
    · simp only [ha, decide_true, if_true, List.mem_cons] at h
      rcases h with rfl | h
      · exact ha
      · exact ih h
    · simp [ha] at h

theorem dropWhile_lt (p : Nat → Nat) (i : Nat) : ∀ (l : List Nat), l.Pairwise (Before p) → ∀ j ∈ l.dropWhile (fun x => decide (p i ≤ p x)), p j < p i
  | [], _, j, hj => by simp at hj
  | a :: l, hl, j, hj => by
    rw [List.pairwise_cons] at hl
    rw [List.dropWhile_cons] at hj
    by_cases ha : p i ≤ p a
    · simp only [ha, decide_true, if_true] at hj
      exact dropWhile_lt p i l hl.2 j hj
    · simp only [ha, decide_false, Bool.false_eq_true, if_false, List.mem_cons] at hj
      rcases hj with rfl | hj
      · omega
      · have := hl.1 j hj
        unfold Before at this; omega

theorem ins_order (p : Nat → Nat) (l : List Nat) (i : Nat) (hl : l.Pairwise (Before p)) (hi : ∀ j ∈ l, i < j) : (ins p l i).Pairwise (Before p) := by
  have hsplit : (l.takeWhile (fun x => decide (p i ≤ p x)) ++ l.dropWhile (fun x => decide (p i ≤ p x))).Pairwise (Before p) := by
    rwa [List.takeWhile_append_dropWhile]
  rw [List.pairwise_append] at hsplit
  obtain ⟨h1, h2, h3⟩ := hsplit
  rw [ins, List.pairwise_append]
  refine ⟨h1, List.pairwise_cons.2 ⟨?_, h2⟩, ?_⟩
  · intro j hj
    exact Or.inl (dropWhile_lt p i l hl j hj)
  · intro j hj k hk
    rcases List.mem_cons.1 hk with rfl | hk
    · have h4 := takeWhile_le p l k j hj
      have h5 := hi j (List.takeWhile_subset _ hj)
      unfold Before; omega
    · exact h3 j hj k hk

theorem foldl_ins (p : Nat → Nat) : ∀ (D l : List Nat), l.Pairwise (Before p) → (∀ i ∈ D, ∀ j ∈ l, i < j) → D.Pairwise (· > ·) →
    (D.foldl (ins p) l).Pairwise (Before p) ∧ ∀ j, j ∈ D.foldl (ins p) l ↔ j ∈ D ∨ j ∈ l
  | [], l, hl, _, _ => ⟨hl, by simp⟩
  | i :: D, l, hl, hd, hD => by
    rw [List.pairwise_cons] at hD
    obtain ⟨h1, h2⟩ := foldl_ins p D (ins p l i) (ins_order p l i hl (hd i (by simp))) (by
      intro k hk j hj
      rcases (mem_ins p l i j).1 hj with rfl | hj
      · exact hD.1 k hk
      · exact hd k (List.mem_cons_of_mem _ hk) j hj) hD.2
    refine ⟨h1, fun j => ?_⟩
    rw [List.foldl_cons, h2, mem_ins]
    simp only [List.mem_cons]; tauto

/-! ### the state between ticks -/

/-- a `uint16_t` period of 0 counts 65536 ticks -/
def ticks (period : Nat) : Nat := if period = 0 then 65536 else period

structure Inv (s : Sched) (ts : List Task) (now : Nat) : Prop where
  count : s.count = ts.length
  ready : s.readyList = none
  cur : s.cur = 0
  script : s.script = []
  item : ∀ i t, ts[i]? = some t → ∃ period, period < 65536 ∧ t.period = ticks period ∧ t.born ≤ now ∧ 0 < t.prio ∧
    s.item i = ⟨period, (ticks period - (now - t.born) % ticks period) % 65536, t.prio⟩

theorem count_down (period age prio : Nat) (hp : period < 65536) :
    (lowered ⟨period, (ticks period - age % ticks period) % 65536, prio⟩ = 0 ↔ ticks period ∣ age + 1) ∧
    stepped ⟨period, (ticks period - age % ticks period) % 65536, prio⟩ = ⟨period, (ticks period - (age + 1) % ticks period) % 65536, prio⟩ := by
  obtain ⟨P, hP⟩ : ∃ P, P = ticks period := ⟨_, rfl⟩
  have hpos : 0 < P ∧ P ≤ 65536 ∧ (P % 65536 = period) := by rw [hP, ticks]; split <;> omega
  rw [← hP]
  have hlt := Nat.mod_lt age hpos.1
  have hmod : (age + 1) % P = if age % P + 1 = P then 0 else age % P + 1 := by
    rw [Nat.add_mod]
    by_cases h1 : P = 1
    · subst h1; simp [Nat.mod_one]
    · rw [Nat.mod_eq_of_lt (show 1 < P by omega)]
      split
      · rename_i h; rw [h, Nat.mod_self]
      · exact Nat.mod_eq_of_lt (by omega)
  have hl : lowered ⟨period, (P - age % P) % 65536, prio⟩ = P - age % P - 1 := by simp only [lowered]; omega
  rw [Nat.dvd_iff_mod_eq_zero, hmod]
  by_cases h : age % P + 1 = P
  · have h0 : lowered ⟨period, (P - age % P) % 65536, prio⟩ = 0 := by rw [hl]; omega
    refine ⟨by simp [h, h0], ?_⟩
    rw [stepped, if_pos h0, if_pos h, Nat.sub_zero, hpos.2.2]
  · have h0 : lowered ⟨period, (P - age % P) % 65536, prio⟩ ≠ 0 := by rw [hl]; omega
    refine ⟨by simp [h, h0], ?_⟩
    have e : P - age % P - 1 = (P - (age % P + 1)) % 65536 := by omega
    rw [stepped, if_neg h0, if_neg h, hl, e]

/-- histories of additions and ticks in which every priority is positive and no tick comes during the run of a task; `now` counts the
ticks -/
inductive Reach : Sched → List Task → Nat → Prop
  | init : Reach (Sched.init []) [] 0
  | add (s : Sched) (ts : List Task) (now period prio : Nat) : Reach s ts now → period < 65536 → 0 < prio → prio < 256 →
      Reach (scheduleTask s period prio) (ts ++ [⟨ticks period, prio, now⟩]) now
  | tick (s s' : Sched) (ts : List Task) (now fuel n : Nat) : Reach s ts now → tick fuel n s = some s' → Reach s' ts (now + 1)

theorem exec_mono (fuel : Nat) : ∀ (n : Nat) (s s' : Sched) (js : List Job), exec fuel n s js = some s' → ∀ m, n ≤ m → exec fuel m s js = some s'
  | n, s, s', [], h, m, _ => by cases n <;> cases m <;> simpa [exec] using h
  | 0, s, s', _ :: _, h, _, _ => by simp [exec] at h
  | n + 1, s, s', j :: js, h, m + 1, hm => by
    simp only [exec, Option.bind_eq_some_iff] at h ⊢
    obtain ⟨r, h1, h2⟩ := h
    exact ⟨r, h1, exec_mono fuel n _ _ _ h2 m (by omega)⟩

theorem walk_mono (s : Sched) (i : Nat) : ∀ (f a : Nat) (s' : Sched), walk s i f a = some s' → ∀ g, f ≤ g → walk s i g a = some s'
  | f + 1, a, s', h, g + 1, hg => by
    simp only [walk] at h ⊢
    cases hn : s.nextReady a with
    | none => rw [hn] at h; exact h
    | some b =>
      rw [hn] at h
      simp only at h ⊢
      split at h
      · rename_i hb; rw [if_pos hb]; exact h
      · rename_i hb; rw [if_neg hb]; exact walk_mono s i f b s' h g (by omega)

theorem insertReady_mono {f : Nat} {s s' : Sched} {i : Nat} (h : insertReady f s i = some s') {g : Nat} (hg : f ≤ g) : insertReady g s i = some s' := by
  simp only [insertReady] at h ⊢
  cases hn : s.readyList with
  | none => rw [hn] at h; exact h
  | some b =>
    rw [hn] at h
    simp only at h ⊢
    split at h
    · rename_i hb; rw [if_pos hb]; exact h
    · rename_i hb; rw [if_neg hb]; exact walk_mono s i f b s' h g hg

theorem update_mono {f g : Nat} (hg : f ≤ g) (s r : Sched) (i : Nat) (h : update f s i = some r) : update g s i = some r := by
  by_cases h0 : lowered (s.item i) = 0
  · rw [update, if_pos h0] at h ⊢; exact insertReady_mono h hg
  · rw [update, if_neg h0] at h ⊢; exact h

theorem sweep_mono {f g : Nat} (hg : f ≤ g) (L : List Nat) : ∀ (s s' : Sched), sweep f L s = some s' → sweep g L s = some s' := by
  induction L with
  | nil => intro s s' h; exact h
  | cons i L ih =>
    intro s s' h
    simp only [sweep, Option.bind_eq_some_iff] at h ⊢
    obtain ⟨r, h1, h2⟩ := h
    exact ⟨r, update_mono hg s r i h1, ih r s' h2⟩

theorem step_mono {f g : Nat} (hg : f ≤ g) (s : Sched) (js : List Job) (r : Sched × List Job) (h : step f s js = some r) : step g s js = some r := by
  unfold step at h ⊢
  split at h
  · exact h
  · split at h
    · rename_i h0; simp only [if_pos h0]; exact h
    · rename_i h0
      simp only [if_neg h0]
      rw [Option.map_eq_some_iff] at h ⊢
      obtain ⟨a, h1, h2⟩ := h
      exact ⟨a, sweep_mono hg _ _ _ h1, h2⟩
  · exact h
  · exact h

theorem exec_fuel {f g : Nat} (hg : f ≤ g) : ∀ (n : Nat) (s s' : Sched) (js : List Job), exec f n s js = some s' → exec g n s js = some s'
  | n, s, s', [], h => by cases n <;> simpa [exec] using h
  | 0, s, s', _ :: _, h => by simp [exec] at h
  | n + 1, s, s', j :: js, h => by
    simp only [exec, Option.bind_eq_some_iff] at h ⊢
    obtain ⟨r, h1, h2⟩ := h
    exact ⟨r, step_mono hg _ _ _ h1, exec_fuel hg n _ _ _ h2⟩

/-- the result does not depend on the bounds -/
theorem tick_unique {f g n m : Nat} {s a b : Sched} (h1 : tick f n s = some a) (h2 : tick g m s = some b) : a = b := by
  have e1 := exec_mono _ _ _ _ _ (exec_fuel (Nat.le_max_left f g) _ _ _ _ h1) _ (Nat.le_max_left n m)
  have e2 := exec_mono _ _ _ _ _ (exec_fuel (Nat.le_max_right f g) _ _ _ _ h2) _ (Nat.le_max_right n m)
  exact Option.some.inj (e1.symm.trans e2)

theorem tick_ok {s : Sched} {ts : List Task} {now : Nat} (hI : Inv s ts now) (fuel n : Nat) (hf : ts.length ≤ fuel)
    (hn : 2 * ts.length + 2 ≤ n) : ∃ s' l, tick fuel n s = some s' ∧ Inv s' ts (now + 1) ∧ s'.log = s.log ++ runs l ∧ Right ts (now + 1) l := by
  by_cases h0 : s.count = 0
  · have hts : ts = [] := by rw [hI.count] at h0; exact List.length_eq_zero_iff.1 h0
    subst hts
    refine ⟨s, [], ?_, ⟨hI.count, hI.ready, hI.cur, hI.script, by simp⟩, by simp [runs], ⟨by simp, by simp, by simp⟩⟩
    obtain ⟨n, rfl⟩ : ∃ m, n = m + 1 := ⟨n - 1, by omega⟩
    simp [tick, exec, step, h0]
  · have hnd : s.tasks.Nodup := by simp [Sched.tasks, List.nodup_range]
    obtain ⟨s1, g1, g2, g3, g4, g5, g6, g7⟩ := sweep_ok fuel s.tasks s [] hI.ready hnd (by simp) (by simp)
      (by simp [Sched.tasks, hI.count]; exact hf)
    obtain ⟨D, hD⟩ : ∃ D, D = s.tasks.filter fun i => decide (lowered (s.item i) = 0) := ⟨_, rfl⟩
    rw [← hD] at g7
    have hDs : D.Pairwise (· > ·) := by
      rw [hD]
      refine List.Pairwise.filter _ ?_
      simp only [Sched.tasks, List.pairwise_reverse]
      exact List.pairwise_lt_range
    obtain ⟨k1, k2⟩ := foldl_ins (fun j => (s.item j).prio) D [] (by simp) (by simp) hDs
    obtain ⟨l, hl⟩ : ∃ l, l = D.foldl (ins fun j => (s.item j).prio) [] := ⟨_, rfl⟩
    rw [← hl] at g7 k1 k2
    have hmem : ∀ i, i ∈ l ↔ i < ts.length ∧ lowered (s.item i) = 0 := by
      intro i
      rw [k2, hD]
      simp [Sched.tasks, hI.count]
    have hln : l.Nodup := by
      refine k1.imp fun h => ?_
      intro e; subst e; unfold Before at h; omega
    have hlen : l.length ≤ ts.length := by
      have : l.length ≤ (List.range ts.length).length :=
        (List.subperm_of_subset hln fun i hi => by simpa using ((hmem i).1 hi).1).length_le
      simpa using this
    have hget : ∀ i, i < ts.length → ts[i]? = some (ts[i]?.getD ⟨0, 0, 0⟩) := by
      intro i hi; simp [hi]
    have hprio : ∀ i t, ts[i]? = some t → (s.item i).prio = t.prio := by
      intro i t ht
      obtain ⟨_, _, _, _, _, h⟩ := hI.item i t ht
      rw [h]
    obtain ⟨m, rfl⟩ : ∃ m, n = m + 1 := ⟨n - 1, by omega⟩
    obtain ⟨s2, d1, d2, d3, d4, d5, d6, d7⟩ := drain_ok fuel l s1 m g7 (by omega) (g3.trans hI.cur) (g5.trans hI.script) (by
      intro i hi
      have hi' := (hmem i).1 hi
      obtain ⟨_, _, _, _, h, h'⟩ := hI.item i _ (hget i hi'.1)
      rw [g6 i, h']; split <;> exact h)
    refine ⟨s2, l, ?_, ?_, ?_, ?_⟩
    · simp [tick, exec, step, h0, g1, d1]
    · refine ⟨(d3.trans g2).trans hI.count, d6, d4, d5, ?_⟩
      intro i t ht
      obtain ⟨period, h1, h2, h3, h4, h5⟩ := hI.item i t ht
      refine ⟨period, h1, h2, by omega, h4, ?_⟩
      have hi : i < ts.length := by
        by_contra hh
        rw [List.getElem?_eq_none (by omega)] at ht; cases ht
      rw [d2, g6 i, if_pos (by simp [Sched.tasks, hI.count, hi]), h5]
      have hc := (count_down period (now - t.born) t.prio h1).2
      rw [hc, show now + 1 - t.born = now - t.born + 1 by omega]
    · rw [d7, g4]
    · refine ⟨?_, ?_, hln⟩
      · intro i
        rw [hmem]
        constructor
        · rintro ⟨hi, h0⟩
          refine ⟨_, hget i hi, ?_⟩
          obtain ⟨period, h1, h2, h3, h4, h5⟩ := hI.item i _ (hget i hi)
          rw [h5] at h0
          have hc := (count_down period (now - (ts[i]?.getD ⟨0, 0, 0⟩).born) _ h1).1.1 h0
          refine ⟨by omega, ?_⟩
          rw [h2, show now + 1 - (ts[i]?.getD ⟨0, 0, 0⟩).born = now - (ts[i]?.getD ⟨0, 0, 0⟩).born + 1 by omega]
          exact hc
        · rintro ⟨t, ht, hb, hd⟩
          have hi : i < ts.length := by
            by_contra hh
            rw [List.getElem?_eq_none (by omega)] at ht; cases ht
          refine ⟨hi, ?_⟩
          obtain ⟨period, h1, h2, h3, h4, h5⟩ := hI.item i t ht
          rw [h5]
          refine (count_down period (now - t.born) _ h1).1.2 ?_
          rw [← h2, show now - t.born + 1 = now + 1 - t.born by omega]
          exact hd
      · refine k1.imp fun h => ?_
        intro t u ht hu
        rw [← hprio _ _ ht, ← hprio _ _ hu]
        exact h

theorem reach_inv {s : Sched} {ts : List Task} {now : Nat} (h : Reach s ts now) : Inv s ts now := by
  induction h with
  | init => exact ⟨rfl, rfl, rfl, rfl, by simp⟩
  | add s ts now period prio _ hp h1 h2 ih =>
    refine ⟨by simp [scheduleTask, ih.count], ih.ready, ih.cur, ih.script, ?_⟩
    intro i t ht
    by_cases hi : i < ts.length
    · rw [List.getElem?_append_left hi] at ht
      obtain ⟨period', g1, g2, g3, g4, g5⟩ := ih.item i t ht
      refine ⟨period', g1, g2, g3, g4, ?_⟩
      simp only [scheduleTask]
      rw [Function.update_of_ne (by rw [ih.count]; omega), g5]
    · rw [List.getElem?_append_right (by omega)] at ht
      have hi' : i = ts.length := by
        by_contra hh
        rw [List.getElem?_eq_none (by simp; omega)] at ht; cases ht
      subst hi'
      simp at ht
      subst ht
      refine ⟨period, hp, rfl, Nat.le_refl _, h1, ?_⟩
      simp only [scheduleTask, ← ih.count, Function.update_self, Nat.sub_self, Nat.zero_mod, Nat.sub_zero]
      congr 1
      simp only [ticks]; split <;> omega
  | tick s s' ts now fuel n _ ht ih =>
    obtain ⟨s'', l, h1, h2, -, -⟩ := tick_ok ih ts.length (2 * ts.length + 2) (Nat.le_refl _) (Nat.le_refl _)
    rw [tick_unique ht h1]; exact h2

/-! ### the claims -/

/-- C15 (for positive priorities and tasks that end before the next tick): in every reachable state the next tick ends and runs exactly
the due tasks, each once, higher priorities first, equal priorities in a fixed order (the youngest task first) -/
theorem C15_runs_due_tasks_in_order_partial {s : Sched} {ts : List Task} {now : Nat} (h : Reach s ts now) :
    ∃ s' l fuel n, tick fuel n s = some s' ∧ s'.log = s.log ++ runs l ∧ Right ts (now + 1) l ∧ Reach s' ts (now + 1) := by
  obtain ⟨s', l, h1, h2, h3, h4⟩ := tick_ok (reach_inv h) ts.length (2 * ts.length + 2) (Nat.le_refl _) (Nat.le_refl _)
  exact ⟨s', l, _, _, h1, h3, h4, .tick s s' ts now _ _ h h1⟩

/-- the sequence of runs of a tick is determined by `Right` -/
theorem C15_order_is_fixed (ts : List Task) (now : Nat) (l l' : List Nat) (h : Right ts now l) (h' : Right ts now l') : l = l' := by
  have hp : l.Perm l' := (List.perm_ext_iff_of_nodup h.once h'.once).2 fun i => (h.due i).trans (h'.due i).symm
  refine hp.eq_of_pairwise ?_ h.order h'.order
  intro i j hi hj h1 h2
  obtain ⟨t, ht, -⟩ := (h.due i).1 hi
  obtain ⟨u, hu, -⟩ := (h'.due j).1 hj
  have a1 := h1 t u ht hu
  have a2 := h2 u t hu ht
  omega

/-- three ticks with a single task of priority 0 and period 1 -/
def zero (fuel n : Nat) : Nat → Option Sched
  | 0 => some (scheduleTask (Sched.init []) 1 0)
  | k + 1 => (zero fuel n k).bind (tick fuel n)

theorem walk_cycle (s : Sched) (h : s.nextReady 0 = some 0) : ∀ fuel, walk s 0 fuel 0 = none
  | 0 => rfl
  | fuel + 1 => by simp [walk, h, walk_cycle s h fuel]

/-- C15 is false for priority 0: the task is due on the first and the second tick and does not run, and the third tick never ends,
whatever the bound on the number of iterations -/
theorem C15_priority_zero_counterexample (fuel n : Nat) (hf : 0 < fuel) (hn : 2 ≤ n) :
    ((zero fuel n 2).map fun s => (s.log, s.nextReady 0)) = some ([], some 0) ∧ zero fuel n 3 = none := by
  obtain ⟨f, rfl⟩ : ∃ f, fuel = f + 1 := ⟨fuel - 1, by omega⟩
  obtain ⟨m, rfl⟩ : ∃ m, n = m + 2 := ⟨n - 2, by omega⟩
  have e : ∀ (a : Sched), exec (f + 1) m a [] = some a := by intro a; cases m <;> rfl
  have h2 : ∃ s2, zero (f + 1) (m + 2) 2 = some s2 ∧ s2.log = [] ∧ s2.nextReady 0 = some 0 ∧ s2.count = 1 ∧ s2.readyList = some 0 ∧
      s2.item 0 = ⟨1, 1, 0⟩ := by
    simp [zero, tick, exec, step, Sched.tasks, scheduleTask, Sched.init, sweep, update, lowered, insertReady, setItem, stepped, linkFront, e,
      walk, link]
  obtain ⟨s2, a1, a2, a3, a4, a5, a6⟩ := h2
  refine ⟨by rw [a1]; simp [a2, a3], ?_⟩
  have : zero (f + 1) (m + 2) 3 = (zero (f + 1) (m + 2) 2).bind (tick (f + 1) (m + 2)) := rfl
  rw [this, a1]
  have hs : update (f + 1) s2 0 = none := by
    rw [update, if_pos (by rw [a6]; rfl), insertReady]
    simp only [setItem, a5, Function.update_self, Nat.lt_irrefl, if_false]
    apply walk_cycle
    exact a3
  simp [tick, exec, step, a4, Sched.tasks, sweep, hs]

/-! ### ticks during the run of a task -/

theorem walk_keeps (s : Sched) (i : Nat) : ∀ (f a : Nat) (s' : Sched), walk s i f a = some s' → s'.item = s.item ∧ s'.log = s.log ∧ s'.cur = s.cur
  | f + 1, a, s', h => by
    simp only [walk] at h
    cases hn : s.nextReady a with
    | none => rw [hn] at h; cases h; exact ⟨rfl, rfl, rfl⟩
    | some b =>
      rw [hn] at h
      simp only at h
      split at h
      · cases h; exact ⟨rfl, rfl, rfl⟩
      · exact walk_keeps s i f b s' h

theorem insertReady_keeps {f : Nat} {s s' : Sched} {i : Nat} (h : insertReady f s i = some s') : s'.item = s.item ∧ s'.log = s.log ∧ s'.cur = s.cur := by
  simp only [insertReady] at h
  cases hn : s.readyList with
  | none => rw [hn] at h; cases h; exact ⟨rfl, rfl, rfl⟩
  | some b =>
    rw [hn] at h
    simp only at h
    split at h
    · cases h; exact ⟨rfl, rfl, rfl⟩
    · exact walk_keeps s i f b s' h

theorem setItem_prio (s : Sched) (i j : Nat) : ((setItem s i).item j).prio = (s.item j).prio := by
  simp only [setItem]
  by_cases e : j = i
  · subst e; simp [stepped]
  · simp [e]

theorem update_keeps {f : Nat} {s s' : Sched} {i : Nat} (h : update f s i = some s') :
    (∀ j, (s'.item j).prio = (s.item j).prio) ∧ s'.log = s.log ∧ s'.cur = s.cur := by
  by_cases h0 : lowered (s.item i) = 0
  · rw [update, if_pos h0] at h
    obtain ⟨h1, h2, h3⟩ := insertReady_keeps h
    exact ⟨fun j => by rw [h1, setItem_prio], h2, h3⟩
  · rw [update, if_neg h0] at h
    cases h
    exact ⟨fun j => setItem_prio s i j, rfl, rfl⟩

theorem sweep_keeps (f : Nat) (L : List Nat) : ∀ (s s' : Sched), sweep f L s = some s' →
    (∀ j, (s'.item j).prio = (s.item j).prio) ∧ s'.log = s.log ∧ s'.cur = s.cur := by
  induction L with
  | nil => intro s s' h; cases h; exact ⟨fun _ => rfl, rfl, rfl⟩
  | cons i L ih =>
    intro s s' h
    simp only [sweep, Option.bind_eq_some_iff] at h
    obtain ⟨r, h1, h2⟩ := h
    obtain ⟨a1, a2, a3⟩ := update_keeps h1
    obtain ⟨b1, b2, b3⟩ := ih r s' h2
    exact ⟨fun j => by rw [b1, a1], b2.trans a2, b3.trans a3⟩

/-- C15: a task of priority 0 never runs, whatever the other tasks are, however long the history and however ticks are nested -/
theorem C15_priority_zero_never_runs (fuel : Nat) : ∀ (n : Nat) (s s' : Sched) (js : List Job) (i : Nat), (s.item i).prio = 0 →
    exec fuel n s js = some s' → .start i ∉ s.log → .start i ∉ s'.log ∧ (s'.item i).prio = 0
  | n, s, s', [], i, h0, h, hs => by
    have : s = s' := by cases n <;> simpa [exec] using h
    subst this; exact ⟨hs, h0⟩
  | 0, _, _, _ :: _, _, _, h, _ => by simp [exec] at h
  | n + 1, s, s', j :: js, i, h0, h, hs => by
    simp only [exec, Option.bind_eq_some_iff] at h
    obtain ⟨⟨s1, js1⟩, h1, h2⟩ := h
    refine C15_priority_zero_never_runs fuel n s1 s' js1 i ?_ h2 ?_ <;> (cases j with
      | tick =>
        simp only [step] at h1
        split at h1
        · cases h1; assumption
        · rw [Option.map_eq_some_iff] at h1
          obtain ⟨a, h3, h4⟩ := h1
          cases h4
          obtain ⟨k1, k2, k3⟩ := sweep_keeps fuel _ _ _ h3
          first | (rw [k1]; exact h0) | (rw [k2]; exact hs)
      | drain =>
        simp only [step] at h1
        cases hr : s.readyList with
        | none => rw [hr] at h1; cases h1; assumption
        | some k =>
          rw [hr] at h1
          simp only at h1
          split at h1
          · rename_i hk
            cases h1
            first
            | exact h0
            | (have hki : k ≠ i := fun e => by rw [e, h0] at hk; omega
               simp only [begin', List.mem_append, List.mem_singleton, Event.start.injEq, not_or]
               exact ⟨hs, Ne.symm hki⟩)
          · cases h1; assumption
      | finish k =>
        cases h1
        first
        | exact h0
        | (simp only [end', List.mem_append, List.mem_singleton, reduceCtorEq, or_false]; exact hs))

/-- a low task (period 1) and a high task (period 2) whose second run lasts two ticks -/
def overrun : Sched := scheduleTask (scheduleTask (Sched.init [0, 2]) 1 5) 2 10

/-- C15: when a task becomes due twice while it waits for a higher one to end, the ready list becomes a cycle and a tick never
ends -/
theorem C15_overrun_hangs_counterexample (fuel n fuel' n' : Nat) (s : Sched) (h : tick fuel n overrun = some s) :
    tick fuel' n' s = none := by
  cases hc : tick fuel' n' s with
  | none => rfl
  | some s' =>
    exfalso
    have h' : ∀ m, ∃ s1, tick 2 (m + 4) overrun = some s1 ∧ s1.count = 2 ∧ s1.item 0 = ⟨1, 1, 5⟩ ∧ s1.item 1 = ⟨2, 1, 10⟩ ∧ s1.readyList = none ∧
        s1.cur = 0 ∧ s1.script = [2] := by
      intro m
      have e : ∀ a k, exec 2 k a [] = some a := by intro a k; cases k <;> rfl
      simp [overrun, tick, exec, step, Sched.tasks, scheduleTask, Sched.init, sweep, update, lowered, insertReady, setItem, stepped,
        linkFront, e, walk, link, begin', end', List.range_succ, Function.update_apply]
    obtain ⟨s1, a1, a2, a3, a4, a5, a6, a7⟩ := h' 0
    have hu := tick_unique h a1
    subst hu
    have c1 := exec_mono _ _ _ _ _ (exec_fuel (Nat.le_add_right fuel' 8) _ _ _ _ hc) _ (Nat.le_add_right n' 10)
    simp [exec, step, a2, Sched.tasks, List.range_succ, sweep, update, a3, a4, lowered, setItem, insertReady, stepped, Function.update_apply, linkFront, a5,
      a6, a7, begin', walk, link] at c1
    rw [walk_cycle _ (by simp [Function.update_apply])] at c1
    simp at c1

/-- a task (priority 10) during whose run one tick happens; a higher (20) and a lower (5) task become due on that tick -/
def preempted : Sched := scheduleTask (scheduleTask (scheduleTask (Sched.init [1]) 2 10) 3 20) 3 5

/-- C59 is false: the run of a task of higher priority resets the current priority, after which the task of lower priority starts
within the run of the first task -/
theorem C59_lower_preempts_counterexample :
    ((tick 3 20 preempted).bind (tick 3 20)).map (·.log) = some [.start 0, .start 1, .finish 1, .start 2, .finish 2, .finish 0] := by
  decide

theorem mem_foldl_ins (p : Nat → Nat) : ∀ (D l : List Nat) (j : Nat), j ∈ D.foldl (ins p) l ↔ j ∈ D ∨ j ∈ l
  | [], l, j => by simp
  | i :: D, l, j => by
    rw [List.foldl_cons, mem_foldl_ins p D, mem_ins]
    simp only [List.mem_cons]; tauto

/-- C59 (what holds): a tick that comes during the run of a task (of priority `s.cur`) starts nothing if no task that waits or becomes
due has a higher priority; tasks that still wait must not become due again -/
theorem C59_nothing_higher_partial (s : Sched) (l : List Nat) (hc : Chain s.nextReady s.readyList l) (hl : l.Nodup)
    (hw : ∀ i < s.count, lowered (s.item i) = 0 → i ∉ l) (hlow : ∀ i ∈ l, (s.item i).prio ≤ s.cur)
    (hdue : ∀ i < s.count, lowered (s.item i) = 0 → (s.item i).prio ≤ s.cur) :
    ∃ s' fuel n, tick fuel n s = some s' ∧ s'.log = s.log ∧ s'.cur = s.cur := by
  by_cases h0 : s.count = 0
  · exact ⟨s, 0, 1, by simp [tick, exec, step, h0], rfl, rfl⟩
  · have hnd : s.tasks.Nodup := by simp [Sched.tasks, List.nodup_range]
    obtain ⟨s1, g1, g2, g3, g4, g5, g6, g7⟩ := sweep_ok (l.length + s.tasks.length) s.tasks s l hc hnd hl
      (fun i hi => hw i (by simpa [Sched.tasks] using hi)) (Nat.le_refl _)
    refine ⟨s1, l.length + s.tasks.length, 2, ?_, g4, g3⟩
    have hm : ∀ i, s1.readyList = some i → (s1.item i).prio ≤ s.cur := by
      intro i hi
      have hmem : i ∈ (s.tasks.filter fun i => decide (lowered (s.item i) = 0)).foldl (ins fun j => (s.item j).prio) l := by
        rw [hi] at g7
        cases hL : (s.tasks.filter fun i => decide (lowered (s.item i) = 0)).foldl (ins fun j => (s.item j).prio) l with
        | nil => rw [hL] at g7; cases g7
        | cons a t => rw [hL] at g7; cases g7.1; simp
      have hp : (s1.item i).prio = (s.item i).prio := by
        rw [g6]
        by_cases e : i ∈ s.tasks
        · rw [if_pos e]; simp only [stepped]
        · rw [if_neg e]
      rw [hp]
      rcases (mem_foldl_ins _ _ _ _).1 hmem with h | h
      · simp only [List.mem_filter, decide_eq_true_eq] at h
        exact hdue i (by simpa [Sched.tasks] using h.1) h.2
      · exact hlow i h
    simp only [tick, exec, step, if_neg h0, g1, Option.map_some, Option.bind_some]
    cases hr : s1.readyList with
    | none => simp [exec]
    | some i =>
      have := hm i hr
      simp only [g3, show ¬ s.cur < (s1.item i).prio by omega, if_false, Option.bind_some, exec]

/-- three tasks after some ticks -/
def demo : Nat → Sched
  | 0 => scheduleTask (scheduleTask (scheduleTask (Sched.init []) 4 1) 2 200) 4 1
  | k + 1 => (tick 3 20 (demo k)).getD (demo k)

/-- tick 2 runs one of them, tick 4 all -/
example : ∃ ts, Reach (demo 4) ts 4 ∧ ts.length = 3 ∧ (demo 4).log = runs [1, 1, 2, 0] := by
  have h0 : Reach (demo 0) _ _ := Reach.add _ _ _ 4 1 (.add _ _ _ 2 200 (.add _ _ _ 4 1 .init (by decide) (by decide) (by decide)) (by decide)
    (by decide) (by decide)) (by decide) (by decide) (by decide)
  have h : ∀ k, (tick 3 20 (demo k)).isSome → tick 3 20 (demo k) = some (demo (k + 1)) := by
    intro k hk
    obtain ⟨a, ha⟩ := Option.isSome_iff_exists.1 hk
    simp [demo, ha]
  have h1 := Reach.tick _ _ _ _ 3 20 h0 (h 0 (by decide))
  have h2 := Reach.tick _ _ _ _ 3 20 h1 (h 1 (by decide))
  have h3 := Reach.tick _ _ _ _ 3 20 h2 (h 2 (by decide))
  have h4 := Reach.tick _ _ _ _ 3 20 h3 (h 3 (by decide))
  exact ⟨_, h4, rfl, by decide⟩

/-- a tick during the run of a task of priority 10 in which a task of priority 5 becomes due -/
example : ∃ s : Sched, s.cur = 10 ∧ Chain s.nextReady s.readyList [1] ∧ s.count = 3 ∧ lowered (s.item 2) = 0 ∧
    ((tick 3 20 s).map (·.log)) = some [] :=
  ⟨⟨3, fun i => ⟨9, if i = 2 then 1 else 9, if i = 0 then 10 else 5⟩, fun _ => none, some 1, 10, [], []⟩, rfl, ⟨rfl, rfl⟩, rfl, by decide, by decide⟩

end Props.Scheduler
