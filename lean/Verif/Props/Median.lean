import Verif.Model.Median
import Verif.Spec.Median
import Mathlib.Data.List.Perm.Basic
import Mathlib.Order.Basic
import Mathlib.Order.BooleanAlgebra.Defs
import Mathlib.Order.Lattice
set_option autoImplicit false
set_option linter.unusedSectionVars false
/- Property C26. -/
namespace Props
open Modm.Median Spec.Median
universe u
variable {T : Type u} [LinearOrder T]

theorem sortAt_perm (l : List T) (c : Nat × Nat) : (sortAt l c).Perm l := by
  unfold sortAt
  split
  · rename_i a b ha hb
    split
    · obtain ⟨h1, e1⟩ := List.getElem?_eq_some_iff.1 ha
      obtain ⟨h2, e2⟩ := List.getElem?_eq_some_iff.1 hb
      subst e1; subst e2
      exact List.set_set_perm h1 h2
    · exact .refl _
  · exact .refl _

theorem foldl_perm (cs : List (Nat × Nat)) (l : List T) : (cs.foldl sortAt l).Perm l := by
  induction cs generalizing l with
  | nil => exact .refl _
  | cons c cs ih => exact (ih _).trans (sortAt_perm l c)

/-- comparators commute with monotone maps to `Bool` (0-1 principle) -/
theorem sortAt_map (f : T → Bool) (hf : ∀ a b, a ≤ b → f a ≤ f b) (l : List T) (c : Nat × Nat) :
    (sortAt l c).map f = sortAt (l.map f) c := by
  unfold sortAt
  simp only [List.getElem?_map]
  cases ha : l[c.1]? with
  | none => rfl
  | some a =>
    cases hb : l[c.2]? with
    | none => rfl
    | some b =>
      simp only [Option.map_some]
      by_cases hab : a > b
      · rw [if_pos hab]
        by_cases hfab : f a > f b
        · rw [if_pos hfab]; simp [List.map_set]
        · rw [if_neg hfab]
          have he : f a = f b := le_antisymm (not_lt.1 hfab) (hf b a (le_of_lt hab))
          rw [List.map_set, List.map_set]
          apply List.ext_getElem?
          intro k
          obtain ⟨h1, e1⟩ := List.getElem?_eq_some_iff.1 ha
          obtain ⟨h2, e2⟩ := List.getElem?_eq_some_iff.1 hb
          simp only [List.getElem?_set, List.length_set, List.length_map]
          by_cases k2 : c.2 = k
          · subst k2; simp [h2, he, e2]
          · by_cases k1 : c.1 = k
            · subst k1; simp [h1, k2, ← he, e1]
            · simp [k1, k2]
      · rw [if_neg hab, if_neg (not_lt.2 (hf a b (not_lt.1 hab)))]

theorem foldl_map (f : T → Bool) (hf : ∀ a b, a ≤ b → f a ≤ f b) (cs : List (Nat × Nat))
    (l : List T) : (cs.foldl sortAt l).map f = cs.foldl sortAt (l.map f) := by
  induction cs generalizing l with
  | nil => rfl
  | cons c cs ih =>
    simp only [List.foldl_cons]
    rw [ih, sortAt_map f hf l c]

/-- what the network does on Boolean inputs -/
def BoolOk (n : Nat) (cs : List (Nat × Nat)) : Prop :=
  ∀ l : List Bool, l.length = n → ((cs.foldl sortAt l)[n / 2]? = some true ↔ n < 2 * l.countP id)

/-- all Boolean lists of length `n` -/
def allBool : Nat → List (List Bool)
  | 0 => [[]]
  | n + 1 => (allBool n).map (false :: ·) ++ (allBool n).map (true :: ·)

theorem mem_allBool (n : Nat) (l : List Bool) (h : l.length = n) : l ∈ allBool n := by
  induction n generalizing l with
  | zero => rw [List.length_eq_zero_iff] at h; subst h; simp [allBool]
  | succ n ih =>
    match l with
    | [] => simp at h
    | b :: l =>
      have := ih l (by simpa using h)
      cases b <;> simp [allBool, this]

theorem boolOk_of (n : Nat) (cs : List (Nat × Nat))
    (h : (allBool n).all (fun l => decide ((cs.foldl sortAt l)[n / 2]? = some true) == decide (n < 2 * l.countP id)) = true) :
    BoolOk n cs := by
  intro l hl
  have := List.all_eq_true.1 h l (mem_allBool n l hl)
  simpa using this

theorem boolOk3 : BoolOk 3 net3 := boolOk_of _ _ (by decide +kernel)
theorem boolOk5 : BoolOk 5 net5 := boolOk_of _ _ (by decide +kernel)
theorem boolOk7 : BoolOk 7 net7 := boolOk_of _ _ (by decide +kernel)
theorem boolOk9 : BoolOk 9 net9 := boolOk_of _ _ (by decide +kernel)

theorem network_median (n : Nat) (cs : List (Nat × Nat)) (hodd : n % 2 = 1)
    (hb : BoolOk n cs) (l : List T) (hl : l.length = n) :
    ∃ m, (cs.foldl sortAt l)[n / 2]? = some m ∧ IsMedian l m := by
  have hp := foldl_perm cs l
  have hlen : n / 2 < (cs.foldl sortAt l).length := by rw [hp.length_eq]; omega
  refine ⟨(cs.foldl sortAt l)[n / 2], List.getElem?_eq_getElem hlen, ?_⟩
  generalize hm : (cs.foldl sortAt l)[n / 2] = m
  refine ⟨hp.mem_iff.1 (hm ▸ List.getElem_mem hlen), ?_, ?_⟩
  · -- elements above m are a minority
    have h1 := foldl_map (fun x => decide (m < x)) (by
      intro a b hab; by_cases h : m < a
      · simp [h, lt_of_lt_of_le h hab]
      · simp [h]) cs l
    have h2 := hb (l.map (fun x => decide (m < x))) (by simpa using hl)
    rw [← h1, List.getElem?_map, List.getElem?_eq_getElem hlen, hm] at h2
    simp only [Option.map_some, lt_irrefl, decide_false, Option.some.injEq, Bool.false_eq_true, false_iff,
      List.countP_map] at h2
    have hsum := List.length_eq_countP_add_countP (fun x => decide (x ≤ m)) (l := l)
    have hc : l.countP (fun x => decide ¬ (decide (x ≤ m) = true)) = l.countP (id ∘ fun x => decide (m < x)) := by
      apply List.countP_congr
      intro x _
      simp
    rw [hc] at hsum
    omega
  · have h1 := foldl_map (fun x => decide (m ≤ x)) (by
      intro a b hab; by_cases h : m ≤ a
      · simp [h, le_trans h hab]
      · simp [h]) cs l
    have h2 := hb (l.map (fun x => decide (m ≤ x))) (by simpa using hl)
    rw [← h1, List.getElem?_map, List.getElem?_eq_getElem hlen, hm] at h2
    simp only [Option.map_some, le_refl, decide_true, true_iff, List.countP_map] at h2
    rw [hl]
    exact h2

theorem net_median (n : Nat) (hn : n = 3 ∨ n = 5 ∨ n = 7 ∨ n = 9) (l : List T) (hl : l.length = n) :
    ∃ m, ((net n).foldl sortAt l)[n / 2]? = some m ∧ IsMedian l m := by
  rcases hn with rfl | rfl | rfl | rfl
  · exact network_median 3 net3 (by decide) boolOk3 l hl
  · exact network_median 5 net5 (by decide) boolOk5 l hl
  · exact network_median 7 net7 (by decide) boolOk7 l hl
  · exact network_median 9 net9 (by decide) boolOk9 l hl

/-- C26: the specification determines the median. -/
theorem C26_median_unique (l : List T) (m m' : T) (h : IsMedian l m) (h' : IsMedian l m') : m = m' := by
  have key : ∀ a b : T, IsMedian l a → IsMedian l b → ¬ a < b := by
    intro a b ha hb hab
    have hs := List.length_eq_countP_add_countP (fun x => decide (x ≤ a)) (l := l)
    have hle : l.countP (fun x => decide (b ≤ x)) ≤ l.countP (fun x => decide ¬ (decide (x ≤ a) = true)) := by
      apply List.countP_mono_left
      intro x _ hx
      simp only [decide_eq_true_eq] at hx ⊢
      exact not_le.2 (lt_of_lt_of_le hab hx)
    have := ha.2.1; have := hb.2.2
    omega
  exact le_antisymm (not_lt.1 (key m' m h' h)) (not_lt.1 (key m m' h h'))

theorem isMedian_perm {l l' : List T} (hp : l.Perm l') (m : T) (h : IsMedian l m) : IsMedian l' m := by
  obtain ⟨h1, h2, h3⟩ := h
  exact ⟨hp.mem_iff.1 h1, by rw [← hp.length_eq, ← hp.countP_eq]; exact h2,
    by rw [← hp.length_eq, ← hp.countP_eq]; exact h3⟩

theorem replaceFirst_perm (old new : T) (l b : List T) (hp : l.Perm (old :: b)) :
    (replaceFirst old new l).Perm (new :: b) := by
  induction l generalizing b with
  | nil => exact absurd hp.length_eq (by simp)
  | cons a l ih =>
    unfold replaceFirst
    by_cases h : a = old
    · subst h; rw [if_pos rfl]; exact (List.Perm.cons_inv hp).cons _
    · rw [if_neg h]
      have ha : a ∈ b := by
        have := hp.mem_iff.1 (List.mem_cons_self (a := a) (l := l))
        rcases List.mem_cons.1 this with e | e
        · exact absurd e h
        · exact e
      obtain ⟨b1, b2, rfl⟩ := List.append_of_mem ha
      have hp' : l.Perm (old :: (b1 ++ b2)) := by
        apply List.Perm.cons_inv (a := a)
        refine hp.trans ?_
        refine (List.Perm.cons old List.perm_middle).trans (List.Perm.swap _ _ _)
      refine ((ih _ hp').cons a).trans ?_
      refine (List.Perm.swap _ _ _).trans (List.Perm.cons _ List.perm_middle.symm)

/-- ring buffer invariant: rotating by `index` gives the window, oldest first -/
def Ring (n : Nat) (x : M T) (w : List T) : Prop :=
  ∃ A B, x.buffer = A ++ B ∧ x.index = A.length ∧ w = B ++ A ∧ 0 < B.length ∧ x.buffer.length = n

theorem ring_step (n : Nat) (x : M T) (w : List T) (v : T) (h : Ring n x w) :
    Ring n (ring n x v) (w.tail ++ [v]) ∧ ∃ old, w.head? = some old ∧ x.buffer[x.index]? = some old ∧
      (ring n x v).buffer.Perm (v :: w.tail) ∧ x.buffer.Perm (old :: w.tail) := by
  obtain ⟨A, B, hb, hi, rfl, hB, hn⟩ := h
  match B, hB with
  | o :: B, _ =>
    have hset : x.buffer.set x.index v = A ++ v :: B := by
      rw [hb, hi, List.set_append_right _ _ (Nat.le_refl _)]; simp
    have hlen : A.length + (B.length + 1) = n := by rw [← hn, hb]; simp
    refine ⟨?_, o, by simp, by rw [hb, hi]; simp, ?_, ?_⟩
    · by_cases he : B = []
      · subst he
        refine ⟨[], A ++ [v], by simp only [ring, hset, List.nil_append], ?_, by simp, by simp, ?_⟩
        · simp only [ring, hi, List.length_nil]; simp at hlen; rw [if_pos (by omega)]
        · simp only [ring, hset]; simp; simpa using hlen
      · refine ⟨A ++ [v], B, by simp [ring, hset], ?_, by simp, List.length_pos_iff.2 he, ?_⟩
        · have := List.length_pos_iff.2 he
          simp only [ring, hi, List.length_append, List.length_singleton]; rw [if_neg (by omega)]
        · simp only [ring, hset]; simp; omega
    · simp only [ring, hset, List.cons_append, List.tail_cons]
      exact List.perm_middle.trans (List.Perm.cons _ List.perm_append_comm)
    · simp only [hb, List.cons_append, List.tail_cons]
      exact List.perm_middle.trans (List.Perm.cons _ List.perm_append_comm)

/-- invariant of a filter whose window is `w` -/
def Inv (n : Nat) (x : M T) (w : List T) : Prop := Ring n x w ∧ (5 < n → x.sorted.Perm x.buffer)

theorem inv_append (n : Nat) (x : M T) (w : List T) (v : T) (h : Inv n x w) : Inv n (append n x v) (w.tail ++ [v]) := by
  obtain ⟨hr, hs⟩ := h
  obtain ⟨h1, old, ho, hg, hp, hp'⟩ := ring_step n x w v hr
  unfold append
  by_cases hn : n ≤ 5
  · rw [if_pos hn]; exact ⟨h1, fun h => by omega⟩
  · rw [if_neg hn]
    simp only [appendBig, hg]
    refine ⟨?_, fun _ => ?_⟩
    · exact h1
    · refine (replaceFirst_perm old v _ _ ((hs (by omega)).trans hp')).trans hp.symm

theorem inv_update (n : Nat) (x : M T) (w : List T) (h : Inv n x w) : Inv n (update n x) w := by
  obtain ⟨hr, hs⟩ := h
  unfold update
  by_cases hn : n ≤ 5
  · rw [if_pos hn]; exact ⟨hr, fun h => by omega⟩
  · rw [if_neg hn]
    exact ⟨hr, fun h => (foldl_perm _ _).trans (hs h)⟩

/-- appended samples of a history -/
def samples : List (Call T) → List T
  | [] => []
  | .append v :: cs => v :: samples cs
  | .update :: cs => samples cs

theorem inv_run (n : Nat) (cs : List (Call T)) (x : M T) (w : List T) (h : Inv n x w) :
    Inv n (run n x cs) ((w ++ samples cs).drop (samples cs).length) := by
  induction cs generalizing x w with
  | nil => simpa [run, samples] using h
  | cons c cs ih =>
    cases c with
    | append v =>
      have := ih _ _ (inv_append n x w v h)
      have hw : w ≠ [] := by obtain ⟨⟨A, B, _, _, rfl, hB, _⟩, _⟩ := h; intro e; simp at e; simp [e.1] at hB
      obtain ⟨o, w', rfl⟩ := List.exists_cons_of_ne_nil hw
      simpa [run, samples] using this
    | update => simpa [run, samples] using ih _ _ (inv_update n x w h)

theorem inv_init (n : Nat) (hn : 0 < n) (v : T) : Inv n (init n v) (List.replicate n v) :=
  ⟨⟨[], List.replicate n v, by simp [init], by simp [init], by simp, by simpa using hn, by simp [init]⟩,
   fun _ => by simp [init]⟩

/-- C26: after any history of `append` and `update` calls that ends with `update`, `getValue` is the median of the
last `n` samples (the initial value standing in for missing ones), for n = 3, 5, 7, 9 and every linear order. -/
theorem C26_median_filter (n : Nat) (hn : n = 3 ∨ n = 5 ∨ n = 7 ∨ n = 9) (v : T) (cs : List (Call T)) :
    ∃ m, getValue n (run n (init n v) (cs ++ [.update])) = some m ∧ IsMedian (window n v (samples cs)) m := by
  have h := inv_run n cs (init n v) _ (inv_init n (by omega) v)
  have hrun : ∀ (x : M T) (cs : List (Call T)), run n x (cs ++ [.update]) = update n (run n x cs) := by
    intro x cs
    induction cs generalizing x with
    | nil => rfl
    | cons c cs ih => cases c <;> simp [run, ih]
  rw [hrun]
  generalize run n (init n v) cs = y at h
  obtain ⟨⟨A, B, hb, hi, hw, hB, hl⟩, hs⟩ := h
  have hbw : y.buffer.Perm (window n v (samples cs)) := by
    unfold window
    rw [hw, hb]; exact List.perm_append_comm
  unfold getValue update
  by_cases h5 : n ≤ 5
  · rw [if_pos h5]
    obtain ⟨m, h1, h2⟩ := net_median n hn y.buffer hl
    exact ⟨m, h1, isMedian_perm hbw m h2⟩
  · rw [if_neg h5]
    have hps := hs (by omega)
    obtain ⟨m, h1, h2⟩ := net_median n hn y.sorted (by rw [hps.length_eq]; exact hl)
    exact ⟨m, h1, isMedian_perm (hps.trans hbw) m h2⟩

/-- C26: without an intervening `update`, `getValue` of the small filters is unchanged by `append`. -/
theorem C26_append_keeps_value (n : Nat) (hn : n ≤ 5) (x : M T) (v : T) :
    getValue n (append n x v) = getValue n x := by
  simp [getValue, append, hn, appendSmall, ring]

example : getValue 7 (run 7 (init 7 (0 : Nat)) [.append 5, .append 9, .update, .append 1, .append 7, .append 7,
    .append 2, .append 8, .append 3, .update]) = some 7 ∧
    window 7 0 [5, 9, 1, 7, 7, 2, 8, 3] = [9, 1, 7, 7, 2, 8, 3] := by decide

end Props
