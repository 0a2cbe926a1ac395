import Verif.Model.LinkedList
import Verif.Spec.Seq
import Mathlib.Data.List.Nodup
import Mathlib.Tactic.Common
/-
C06: `modm::LinkedList` refines a sequence. The whole state, heap included, is a function of the sequence, so nothing leaks and
nothing dangles.
-/
set_option autoImplicit false
namespace Props.LinkedList
open Modm.LinkedList hiding insert
open Spec.Seq
variable {T : Type}

/-- first identity, or `q` -/
def headOr (l : List (Nat × T)) (q : Nat) : Nat := (ids l).headD q
/-- last identity, or 0 -/
def lastOr (l : List (Nat × T)) : Nat := (ids l).getLastD 0

/-- heap `h` plus the nodes of `l`, chained, the last one pointing to `q` -/
def seg (h : Heap (Node T)) : List (Nat × T) → Nat → Heap (Node T)
  | [], _ => h
  | (a, v) :: l, q => Function.update (seg h l q) a (some ⟨v, headOr l q⟩)

/-- the state that represents `l`: its nodes and no others -/
def repr (l : List (Nat × T)) : State T := ⟨seg (fun _ => none) l 0, headOr l 0, lastOr l⟩

/-- distinct non-null addresses -/
def Wf (l : List (Nat × T)) : Prop := (ids l).Nodup ∧ 0 ∉ ids l

theorem headOr_append (l₁ l₂ : List (Nat × T)) (q : Nat) : headOr (l₁ ++ l₂) q = headOr l₁ (headOr l₂ q) := by
  cases l₁ <;> simp [headOr, ids]

theorem lastOr_append (l : List (Nat × T)) (x : Nat × T) : lastOr (l ++ [x]) = x.1 := by simp [lastOr, ids]

theorem seg_append (h : Heap (Node T)) (l₁ l₂ : List (Nat × T)) (q : Nat) :
    seg h (l₁ ++ l₂) q = seg (seg h l₂ q) l₁ (headOr l₂ q) := by
  induction l₁ with
  | nil => rfl
  | cons x l₁ ih => simp only [List.cons_append, seg, ih, headOr_append]

theorem seg_other (h : Heap (Node T)) (l : List (Nat × T)) (q a : Nat) (ha : a ∉ ids l) : seg h l q a = h a := by
  induction l with
  | nil => rfl
  | cons x l ih =>
    simp only [ids, List.map_cons, List.mem_cons, not_or] at ha
    simp only [seg]
    rw [Function.update_of_ne ha.1]
    exact ih ha.2

theorem seg_update (h : Heap (Node T)) (l : List (Nat × T)) (q a : Nat) (n : Option (Node T)) (ha : a ∉ ids l) :
    Function.update (seg h l q) a n = seg (Function.update h a n) l q := by
  induction l with
  | nil => rfl
  | cons x l ih =>
    simp only [ids, List.map_cons, List.mem_cons, not_or] at ha
    simp only [seg]
    rw [Function.update_comm (Ne.symm ha.1), ih ha.2]

theorem seg_at (h : Heap (Node T)) (l₁ l₂ : List (Nat × T)) (a : Nat) (v : T) (q : Nat) (ha : a ∉ ids l₁) :
    seg h (l₁ ++ (a, v) :: l₂) q a = some ⟨v, headOr l₂ q⟩ := by
  rw [seg_append, seg_other _ _ _ _ ha]; simp [seg]

theorem wf_split (l₁ l₂ : List (Nat × T)) (a : Nat) (v : T) (h : Wf (l₁ ++ (a, v) :: l₂)) :
    a ≠ 0 ∧ a ∉ ids l₁ ∧ a ∉ ids l₂ ∧ Wf (l₁ ++ l₂) := by
  obtain ⟨hn, h0⟩ := h
  simp only [ids, List.map_append, List.map_cons, List.nodup_append, List.nodup_cons, List.mem_cons, List.mem_append, not_or] at hn h0
  refine ⟨fun e => h0.2.1 e.symm, fun hm => hn.2.2 a hm a (Or.inl rfl) rfl, hn.2.1.1, ?_, ?_⟩
  · simp only [ids, List.map_append, List.nodup_append]
    exact ⟨hn.1, hn.2.1.2, fun x hx y hy => hn.2.2 x hx y (Or.inr hy)⟩
  · simp only [ids, List.map_append, List.mem_append, not_or]
    exact ⟨h0.1, h0.2.2⟩

theorem wf_insert (l₁ l₂ : List (Nat × T)) (a : Nat) (v : T) (h : Wf (l₁ ++ l₂)) (ha : Fresh (l₁ ++ l₂) a) :
    Wf (l₁ ++ (a, v) :: l₂) := by
  obtain ⟨hn, h0⟩ := h
  obtain ⟨ha0, ha⟩ := ha
  simp only [ids, List.map_append, List.nodup_append, List.mem_append, not_or] at hn h0 ha
  constructor
  · simp only [ids, List.map_append, List.map_cons, List.nodup_append, List.nodup_cons, List.mem_cons]
    refine ⟨hn.1, ⟨ha.2, hn.2.1⟩, ?_⟩
    rintro x hx y (rfl | hy)
    · rintro rfl; exact ha.1 hx
    · exact hn.2.2 x hx y hy
  · simp only [ids, List.map_append, List.map_cons, List.mem_append, List.mem_cons, not_or]
    exact ⟨h0.1, fun e => ha0 e.symm, h0.2⟩

theorem wf_tail (x : Nat × T) (l : List (Nat × T)) (h : Wf (x :: l)) : x.1 ≠ 0 ∧ x.1 ∉ ids l ∧ Wf l := by
  obtain ⟨h1, _, h2, h3⟩ := wf_split [] l x.1 x.2 h
  exact ⟨h1, h2, h3⟩

theorem headOr_zero (l : List (Nat × T)) (h : Wf l) : headOr l 0 = 0 ↔ l = [] := by
  cases l with
  | nil => simp [headOr, ids]
  | cons x l => simpa [headOr, ids] using (wf_tail x l h).1

theorem lastOr_zero (l : List (Nat × T)) (h : Wf l) : lastOr l = 0 ↔ l = [] := by
  rcases List.eq_nil_or_concat l with rfl | ⟨l, x, rfl⟩
  · simp [lastOr, ids]
  · rw [List.concat_eq_append] at h ⊢
    rw [lastOr_append]
    simpa using (wf_split l [] x.1 x.2 h).1

theorem mem_ids (l : List (Nat × T)) (a : Nat) (h : a ∈ ids l) : ∃ l₁ v l₂, l = l₁ ++ (a, v) :: l₂ := by
  obtain ⟨x, hx, rfl⟩ := List.mem_map.1 h
  obtain ⟨l₁, l₂, rfl⟩ := List.append_of_mem hx
  exact ⟨l₁, x.2, l₂, rfl⟩

/-! ### the operations on represented states -/

theorem prepend_repr (g : Nat → Nat) (a : Nat) (v : T) (l : List (Nat × T)) (hw : Wf l) :
    prepend g a v (repr l) = some (repr ((a, v) :: l)) := by
  simp only [prepend, create, poke, Function.update_self, Option.map_some, Function.update_idem]
  congr 1
  have hl : (if (repr l).back = 0 then a else (repr l).back) = lastOr ((a, v) :: l) := by
    change (if lastOr l = 0 then a else lastOr l) = _
    by_cases h0 : l = []
    · subst h0; simp [lastOr, ids]
    · rw [if_neg (fun e => h0 ((lastOr_zero l hw).1 e))]
      cases l with
      | nil => exact absurd rfl h0
      | cons x l => simp [lastOr, ids]
  rw [hl]; rfl

theorem append_repr (g : Nat → Nat) (a : Nat) (v : T) (l : List (Nat × T)) (hw : Wf l) (ha : Fresh l a) :
    append g a v (repr l) = some (repr (l ++ [(a, v)])) := by
  rcases List.eq_nil_or_concat l with rfl | ⟨l, ⟨b, w⟩, rfl⟩
  · simp [append, repr, headOr, lastOr, ids, seg, create, poke]
  · rw [List.concat_eq_append] at hw ha ⊢
    obtain ⟨hb0, hb, -, -⟩ := wf_split l [] b w hw
    have hab : a ∉ ids l ∧ a ≠ b := by
      have := ha.2
      simpa [ids, not_or] using this
    have hf : (repr (l ++ [(b, w)])).front ≠ 0 := fun e => by simpa using (headOr_zero _ hw).1 e
    simp only [append, create, poke, Function.update_self, Option.map_some, Function.update_idem, Option.bind_some, if_neg hf]
    simp only [repr]
    rw [lastOr_append, Function.update_of_ne (Ne.symm hab.2), seg_at _ _ _ _ _ _ hb]
    simp only [Option.map_some]
    congr 2
    · rw [show (l ++ [(b, w)]) ++ [(a, v)] = l ++ [(b, w), (a, v)] by simp]
      rw [seg_append, seg_append, seg_update _ _ _ _ _ hab.1, seg_update _ _ _ _ _ hb]
      simp only [seg, headOr, ids, List.map_cons, List.map_nil, List.headD_cons, List.headD_nil]
      rw [Function.update_comm hab.2, Function.update_idem]
      rw [Function.update_comm hab.2.symm]
    · rw [headOr_append _ [(a, v)]]
      cases l <;> simp [headOr, ids]
    · simp [lastOr, ids]

theorem insertAfter_split (l₁ l₂ : List (Nat × T)) (b : Nat) (w : T) (x : Nat × T) (hb : b ∉ ids l₁) :
    insertAfter b x (l₁ ++ (b, w) :: l₂) = l₁ ++ (b, w) :: x :: l₂ := by
  induction l₁ with
  | nil => simp [insertAfter]
  | cons y l ih =>
    simp only [ids, List.map_cons, List.mem_cons, not_or] at hb
    simp only [List.cons_append, insertAfter, if_neg (Ne.symm hb.1), ih hb.2]

theorem lastOr_split (l₁ l₂ : List (Nat × T)) (b : Nat) (w : T) :
    lastOr (l₁ ++ (b, w) :: l₂) = if l₂ = [] then b else lastOr l₂ := by
  rcases List.eq_nil_or_concat l₂ with rfl | ⟨l, x, rfl⟩
  · rw [lastOr_append]; simp
  · rw [List.concat_eq_append, show l₁ ++ (b, w) :: (l ++ [x]) = (l₁ ++ (b, w) :: l) ++ [x] by simp, lastOr_append, lastOr_append]
    simp

theorem back_insert (l₁ l₂ : List (Nat × T)) (b a : Nat) (v w : T) (hb2 : b ∉ ids l₂) (x : Nat)
    (hx : x = lastOr (l₁ ++ (b, w) :: l₂)) : (if x = b then a else x) = lastOr (l₁ ++ (b, w) :: (a, v) :: l₂) := by
  rw [lastOr_split] at hx
  rw [lastOr_split]
  simp only [reduceCtorEq, if_false]
  have h3 := lastOr_split [] l₂ a v
  simp only [List.nil_append] at h3
  rw [h3]
  subst hx
  by_cases h2 : l₂ = []
  · simp [h2]
  · rw [if_neg h2, if_neg h2, if_neg]
    intro e
    rcases List.eq_nil_or_concat l₂ with rfl | ⟨l, x, rfl⟩
    · exact h2 rfl
    · rw [List.concat_eq_append, lastOr_append] at e
      exact hb2 (by simp [ids, e])

theorem back_remove (l₁ l₂ : List (Nat × T)) (b a : Nat) (v w : T) (ha : a ∉ ids l₂) (x : Nat)
    (hx : x = lastOr (l₁ ++ (b, w) :: (a, v) :: l₂)) : (if a = x then b else x) = lastOr (l₁ ++ (b, w) :: l₂) := by
  rw [lastOr_split] at hx ⊢
  simp only [reduceCtorEq, if_false] at hx
  have h3 := lastOr_split [] l₂ a v
  simp only [List.nil_append] at h3
  rw [h3] at hx
  subst hx
  by_cases h2 : l₂ = []
  · simp [h2]
  · rw [if_neg h2, if_neg h2, if_neg]
    intro e
    rcases List.eq_nil_or_concat l₂ with rfl | ⟨l, x, rfl⟩
    · exact h2 rfl
    · rw [List.concat_eq_append, lastOr_append] at e
      exact ha (by simp [ids, e])

theorem insert_repr (g : Nat → Nat) (b a : Nat) (v w : T) (l₁ l₂ : List (Nat × T)) (hw : Wf (l₁ ++ (b, w) :: l₂))
    (ha : Fresh (l₁ ++ (b, w) :: l₂) a) :
    Modm.LinkedList.insert g b a v (repr (l₁ ++ (b, w) :: l₂)) = some (repr (l₁ ++ (b, w) :: (a, v) :: l₂)) := by
  obtain ⟨hb0, hb1, hb2, -⟩ := wf_split l₁ l₂ b w hw
  have hab : a ∉ ids l₁ ∧ a ≠ b ∧ a ∉ ids l₂ := by
    have := ha.2
    simpa [ids, not_or] using this
  simp only [Modm.LinkedList.insert, if_neg hb0, create, poke, repr, Function.update_self, Option.map_some, Function.update_idem, Option.bind_some]
  rw [Function.update_of_ne (Ne.symm hab.2.1), seg_at _ _ _ _ _ _ hb1]
  simp only [Option.bind_some]
  rw [Function.update_of_ne (Ne.symm hab.2.1), seg_at _ _ _ _ _ _ hb1]
  simp only [Option.map_some]
  congr 2
  · rw [seg_append, seg_append, seg_update _ _ _ _ _ hab.1, seg_update _ _ _ _ _ hb1]
    simp only [seg]
    rw [Function.update_comm hab.2.1, Function.update_idem, Function.update_comm hab.2.1.symm]
    rfl
  · rw [headOr_append, headOr_append]; rfl
  · exact back_insert l₁ l₂ b a v w hb2 _ rfl

theorem free_first (a : Nat) (v : T) (l : List (Nat × T)) (h : a ∉ ids l) :
    free (seg (fun _ => none) ((a, v) :: l) 0) a = some (seg (fun _ => none) l 0) := by
  simp only [free, seg, Function.update_self, Option.map_some, Function.update_idem]
  congr 1
  rw [Function.update_eq_self_iff, seg_other _ _ _ _ h]

theorem removeFront_repr (x : Nat × T) (l : List (Nat × T)) (hw : Wf (x :: l)) : removeFront (repr (x :: l)) = some (repr l) := by
  obtain ⟨h0, hx, hl⟩ := wf_tail x l hw
  obtain ⟨a, v⟩ := x
  have hn : (repr ((a, v) :: l)).heap a = some ⟨v, headOr l 0⟩ := by simp [repr, seg]
  have hfr : (repr ((a, v) :: l)).front = a := rfl
  have hf : free (repr ((a, v) :: l)).heap a = some (seg (fun _ => none) l 0) := free_first a v l hx
  simp only [removeFront, hfr, hn, Option.bind_some, hf, Option.map_some]
  congr 1
  by_cases h : l = []
  · subst h; simp [headOr, ids, repr, lastOr]
  · rw [if_neg (fun e => h ((headOr_zero l hl).1 e))]
    cases l with
    | nil => exact absurd rfl h
    | cons y l => simp [repr, lastOr, ids]

theorem removeAll_repr (l : List (Nat × T)) (hw : Wf l) : ∀ fuel, l.length < fuel → removeAll fuel (repr l) = some (repr []) := by
  induction l with
  | nil => intro fuel hf; cases fuel with
    | zero => omega
    | succ n => rfl
  | cons x l ih =>
    intro fuel hf
    cases fuel with
    | zero => omega
    | succ n =>
      obtain ⟨h0, hx, hl⟩ := wf_tail x l hw
      have : (repr (x :: l)).front ≠ 0 := h0
      simp only [removeAll, if_neg this, removeFront_repr x l hw, Option.bind_some]
      exact ih hl n (by simpa using hf)

theorem removeLoop_here (iter : Nat) (w v : T) (b : Nat) (l₁ l₂ : List (Nat × T)) (n : Nat)
    (hw : Wf (l₁ ++ (b, w) :: (iter, v) :: l₂)) :
    removeLoop iter (n + 1) b (repr (l₁ ++ (b, w) :: (iter, v) :: l₂)) = some (repr (l₁ ++ (b, w) :: l₂), headOr l₂ 0) := by
  obtain ⟨hb0, hb1, hb2, -⟩ := wf_split l₁ ((iter, v) :: l₂) b w hw
  have hw' : Wf ((l₁ ++ [(b, w)]) ++ (iter, v) :: l₂) := by simpa using hw
  obtain ⟨hi0, hi1, hi2, -⟩ := wf_split (l₁ ++ [(b, w)]) l₂ iter v hw'
  have hbi : iter ≠ b ∧ iter ∉ ids l₁ := by
    refine ⟨fun e => hi1 (by simp [ids, e]), fun hm => hi1 ?_⟩
    simp only [ids, List.map_append, List.mem_append]; exact Or.inl hm
  have hb : (repr (l₁ ++ (b, w) :: (iter, v) :: l₂)).heap b = some ⟨w, iter⟩ := by
    simp only [repr]; rw [seg_at _ _ _ _ _ _ hb1]; rfl
  have hi : (repr (l₁ ++ (b, w) :: (iter, v) :: l₂)).heap iter = some ⟨v, headOr l₂ 0⟩ := by
    have := seg_at (fun _ => none) (l₁ ++ [(b, w)]) l₂ iter v 0 hi1
    simpa [repr] using this
  simp only [removeLoop, hb, Option.bind_some, if_neg hi0, if_true, hi, poke, Option.map_some, free]
  rw [Function.update_of_ne hbi.1, hi]
  simp only [Option.map_some, Option.bind_some]
  rw [Function.update_of_ne hbi.1.symm, Function.update_self]
  simp only [Option.map_some]
  congr 3
  · simp only [repr]
    rw [seg_append, seg_append, seg_update _ _ _ _ _ hb1, seg_update _ _ _ _ _ hbi.2]
    simp only [seg]
    rw [Function.update_idem, Function.update_comm hbi.1, Function.update_idem]
    rw [Function.update_eq_self_iff.2]
    · rfl
    · rw [Function.update_of_ne hbi.1, seg_other _ _ _ _ hi2]
  · simp only [repr]; rw [headOr_append, headOr_append]; rfl
  · exact back_remove l₁ l₂ b iter v w hi2 _ rfl

theorem filter_other (l : List (Nat × T)) (a : Nat) (h : a ∉ ids l) : l.filter (fun x => x.1 ≠ a) = l := by
  rw [List.filter_eq_self]
  intro x hx
  simp only [ne_eq, decide_eq_true_eq]
  intro e
  exact h (e ▸ List.mem_map_of_mem hx)

theorem removeLoop_repr (iter : Nat) (l₂ : List (Nat × T)) : ∀ (l₁ : List (Nat × T)) (b : Nat) (w : T) (fuel : Nat),
    Wf (l₁ ++ (b, w) :: l₂) → iter ≠ b → l₂.length < fuel → iter ∉ ids l₁ →
    removeLoop iter fuel b (repr (l₁ ++ (b, w) :: l₂)) =
      some (repr ((l₁ ++ (b, w) :: l₂).filter fun x => x.1 ≠ iter), if iter ∈ ids l₂ then successor iter l₂ else iter) := by
  induction l₂ with
  | nil =>
    intro l₁ b w fuel hw hne hf hi
    obtain ⟨n, rfl⟩ : ∃ n, fuel = n + 1 := ⟨fuel - 1, by simp at hf; omega⟩
    obtain ⟨hb0, hb1, -, -⟩ := wf_split l₁ [] b w hw
    have hb : (repr (l₁ ++ [(b, w)])).heap b = some ⟨w, 0⟩ := by
      simp only [repr]; rw [seg_at _ _ _ _ _ _ hb1]; rfl
    have hfl : (l₁ ++ [(b, w)]).filter (fun x => x.1 ≠ iter) = l₁ ++ [(b, w)] := by
      apply filter_other
      simp only [ids, List.map_append, List.mem_append, not_or]
      exact ⟨hi, by simpa using hne⟩
    rw [hfl]
    simp [removeLoop, hb, ids]
  | cons x l₂ ih =>
    intro l₁ b w fuel hw hne hf hi
    obtain ⟨n, rfl⟩ : ∃ n, fuel = n + 1 := ⟨fuel - 1, by simp at hf; omega⟩
    obtain ⟨c, u⟩ := x
    obtain ⟨hb0, hb1, hb2, -⟩ := wf_split l₁ ((c, u) :: l₂) b w hw
    by_cases hc : c = iter
    · subst hc
      rw [removeLoop_here c w u b l₁ l₂ n hw]
      have hw' : Wf ((l₁ ++ [(b, w)]) ++ (c, u) :: l₂) := by simpa using hw
      obtain ⟨hi0, hi1, hi2, -⟩ := wf_split (l₁ ++ [(b, w)]) l₂ c u hw'
      have hfl : (l₁ ++ (b, w) :: (c, u) :: l₂).filter (fun x => x.1 ≠ c) = l₁ ++ (b, w) :: l₂ := by
        rw [show l₁ ++ (b, w) :: (c, u) :: l₂ = l₁ ++ ([(b, w)] ++ ([(c, u)] ++ l₂)) by simp]
        simp only [List.filter_append]
        rw [filter_other l₁ c hi, filter_other l₂ c hi2]
        simp [Ne.symm hne]
      rw [hfl]
      simp [ids, successor, headOr]
    · have hb : (repr (l₁ ++ (b, w) :: (c, u) :: l₂)).heap b = some ⟨w, c⟩ := by
        simp only [repr]; rw [seg_at _ _ _ _ _ _ hb1]; rfl
      have hc0 : c ≠ 0 := by
        have hw' : Wf ((l₁ ++ [(b, w)]) ++ (c, u) :: l₂) := by simpa using hw
        exact (wf_split (l₁ ++ [(b, w)]) l₂ c u hw').1
      simp only [removeLoop, hb, Option.bind_some, if_neg hc0, if_neg hc]
      have := ih (l₁ ++ [(b, w)]) c u n (by simpa using hw) (Ne.symm hc) (by simpa using hf)
        (by
          simp only [ids, List.map_append, List.mem_append, not_or]
          exact ⟨hi, by simpa using hne⟩)
      rw [show (l₁ ++ [(b, w)]) ++ (c, u) :: l₂ = l₁ ++ (b, w) :: (c, u) :: l₂ by simp] at this
      rw [this]
      have h1 : (iter ∈ ids ((c, u) :: l₂)) ↔ iter ∈ ids l₂ := by simp [ids, Ne.symm hc]
      simp only [h1, successor, if_neg hc]

/-- `remove` deletes the named element and returns its successor; an iterator that is not in the list changes nothing -/
theorem remove_repr (iter fuel : Nat) (l : List (Nat × T)) (hw : Wf l) (hf : l.length < fuel) :
    remove fuel iter (repr l) = some (repr (apply l (.remove iter)),
      if iter ∈ ids l then successor iter l else if l = [] then 0 else iter) := by
  cases l with
  | nil => simp [remove, repr, headOr, ids, Spec.Seq.apply]
  | cons x l =>
    obtain ⟨a, v⟩ := x
    obtain ⟨h0, hx, hl⟩ := wf_tail (a, v) l hw
    have hfr : (repr ((a, v) :: l)).front = a := rfl
    have hne : (repr ((a, v) :: l)).front ≠ 0 := h0
    simp only [remove, if_neg hne]
    by_cases hi : iter = a
    · subst hi
      rw [if_pos hfr.symm, removeFront_repr _ _ hw]
      have hfl : ((iter, v) :: l).filter (fun x => x.1 ≠ iter) = l := by
        simp only [List.filter_cons, ne_eq, not_true_eq_false, decide_false, Bool.false_eq_true, if_false]
        exact filter_other l iter hx
      simp only [Option.map_some, Spec.Seq.apply, hfl]
      simp [ids, successor, repr, headOr]
    · rw [if_neg (fun e => hi (e.trans hfr)), hfr]
      have := removeLoop_repr iter l [] a v fuel hw hi (by simp at hf; omega) (by simp [ids])
      simp only [List.nil_append] at this
      rw [this]
      have h1 : (iter ∈ ids ((a, v) :: l)) ↔ iter ∈ ids l := by simp [ids, hi]
      have h2 : a ≠ iter := fun e => hi e.symm
      simp only [Spec.Seq.apply, h1, successor, if_neg h2, reduceCtorEq, if_false]

/-! ### the claims -/

/-- the sequence operation a call performs -/
def opOf : Call T → Op T
  | .prepend _ a v => .prepend a v
  | .append _ a v => .append a v
  | .insert _ p a v => .insert p a v
  | .removeFront => .removeFront
  | .removeAll => .removeAll
  | .remove it => .remove it

theorem call_repr (fuel : Nat) (l : List (Nat × T)) (c : Call T) (hw : Wf l) (hf : l.length < fuel) (hok : OkSingle l (opOf c)) :
    call fuel (repr l) c = some (repr (apply l (opOf c))) ∧ Wf (apply l (opOf c)) := by
  cases c with
  | prepend g a v => exact ⟨prepend_repr g a v l hw, wf_insert [] l a v hw hok⟩
  | append g a v =>
    refine ⟨append_repr g a v l hw hok, ?_⟩
    have hok' : Fresh l a := hok
    have := wf_insert l [] a v (by simpa using hw) (by simpa using hok')
    simpa [Spec.Seq.apply, opOf] using this
  | insert g p a v =>
    obtain ⟨hfr, hp⟩ := hok
    by_cases h0 : p = 0
    · subst h0
      have := wf_insert l [] a v (by simpa using hw) (by simpa using hfr)
      simp only [call, Modm.LinkedList.insert, if_true, Spec.Seq.apply, opOf]
      exact ⟨append_repr g a v l hw hfr, by simpa using this⟩
    · obtain ⟨l₁, w, l₂, rfl⟩ := mem_ids l p (hp.resolve_left h0)
      obtain ⟨-, h1, h2, -⟩ := wf_split l₁ l₂ p w hw
      simp only [call, Spec.Seq.apply, opOf, if_neg h0]
      rw [insertAfter_split _ _ _ _ _ h1]
      refine ⟨insert_repr g p a v w l₁ l₂ hw hfr, ?_⟩
      have := wf_insert (l₁ ++ [(p, w)]) l₂ a v (by simpa using hw) (by simpa using hfr)
      simpa using this
  | removeFront =>
    cases l with
    | nil => exact absurd rfl hok
    | cons x l => exact ⟨removeFront_repr x l hw, (wf_tail x l hw).2.2⟩
  | removeAll => exact ⟨removeAll_repr l hw fuel hf, by simp [Wf, Spec.Seq.apply, opOf, ids]⟩
  | remove it =>
    refine ⟨by simp only [call, remove_repr it fuel l hw hf, Option.map_some]; rfl, ?_⟩
    obtain ⟨h1, h2⟩ := hw
    refine ⟨h1.sublist (List.Sublist.map _ List.filter_sublist), fun h => h2 ?_⟩
    exact (List.Sublist.map _ (List.filter_sublist (p := fun x : Nat × T => x.1 ≠ it))).subset h

theorem apply_length (l : List (Nat × T)) (op : Op T) : (apply l op).length ≤ l.length + 1 := by
  have hins : ∀ (p : Nat) (x : Nat × T) (l : List (Nat × T)), (insertAfter p x l).length ≤ l.length + 1 := by
    intro p x l
    induction l with
    | nil => simp [insertAfter]
    | cons y l ih => simp only [insertAfter]; split <;> (simp; try omega)
  cases op <;> simp only [Spec.Seq.apply, List.length_cons, List.length_append, List.length_drop, List.length_dropLast, List.length_nil] <;>
    try omega
  · split
    · simp
    · exact hins _ _ _
  · exact Nat.le_succ_of_le (List.length_filter_le _ _)

theorem calls_repr (cs : List (Call T)) : ∀ (fuel : Nat) (l l' : List (Nat × T)), Wf l → l.length + cs.length < fuel →
    History OkSingle l (cs.map opOf) l' → calls fuel (repr l) cs = some (repr l') ∧ Wf l' := by
  induction cs with
  | nil =>
    intro fuel l l' hw _ h
    cases h
    exact ⟨rfl, hw⟩
  | cons c cs ih =>
    intro fuel l l' hw hf h
    cases h with
    | cons _ _ _ _ hok h =>
      simp only [List.length_cons] at hf
      obtain ⟨h1, h2⟩ := call_repr fuel l c hw (by omega) hok
      simp only [calls, h1, Option.bind_some]
      exact ih fuel _ l' h2 (by have := apply_length l (opOf c); omega) h

theorem iterate_seg (h : Heap (Node T)) (l : List (Nat × T)) : ∀ fuel, Wf l → l.length < fuel →
    iterate (seg h l 0) fuel (headOr l 0) = some (values l) := by
  suffices H : ∀ (l₁ l₂ : List (Nat × T)) (fuel : Nat), Wf (l₁ ++ l₂) → l₂.length < fuel →
      iterate (seg h (l₁ ++ l₂) 0) fuel (headOr l₂ 0) = some (values l₂) by
    intro fuel hw hf; exact H [] l fuel hw hf
  intro l₁ l₂
  induction l₂ generalizing l₁ with
  | nil =>
    intro fuel _ hf
    obtain ⟨n, rfl⟩ : ∃ n, fuel = n + 1 := ⟨fuel - 1, by simp at hf; omega⟩
    simp [iterate, headOr, ids, values]
  | cons x l₂ ih =>
    intro fuel hw hf
    obtain ⟨n, rfl⟩ : ∃ n, fuel = n + 1 := ⟨fuel - 1, by simp at hf; omega⟩
    obtain ⟨a, v⟩ := x
    obtain ⟨h0, h1, h2, h3⟩ := wf_split l₁ l₂ a v hw
    have hh : headOr ((a, v) :: l₂) 0 = a := rfl
    simp only [iterate, hh, if_neg h0, seg_at h l₁ l₂ a v 0 h1, Option.bind_some]
    have := ih (l₁ ++ [(a, v)]) n (by simpa using hw) (by simpa using hf)
    rw [show (l₁ ++ [(a, v)]) ++ l₂ = l₁ ++ (a, v) :: l₂ by simp] at this
    rw [this]; rfl

theorem getSize_iterate (h : Heap (Node T)) (fuel : Nat) : ∀ (node count : Nat),
    getSize h fuel node count = (iterate h fuel node).map fun vs => count + vs.length := by
  induction fuel with
  | zero => intro node count; rfl
  | succ n ih =>
    intro node count
    simp only [getSize, iterate]
    by_cases h0 : node = 0
    · simp [h0]
    · simp only [if_neg h0]
      cases h node with
      | none => rfl
      | some x =>
        simp only [Option.bind_some, ih, Option.map_map]
        congr 1
        funext vs
        simp only [Function.comp, List.length_cons]; omega

theorem destructor_repr (l : List (Nat × T)) : ∀ (fuel back : Nat), Wf l → l.length < fuel →
    destructor fuel ⟨seg (fun _ => none) l 0, headOr l 0, back⟩ = some ⟨fun _ => none, 0, back⟩ := by
  induction l with
  | nil =>
    intro fuel back _ hf
    obtain ⟨n, rfl⟩ : ∃ n, fuel = n + 1 := ⟨fuel - 1, by simp at hf; omega⟩
    rfl
  | cons x l ih =>
    intro fuel back hw hf
    obtain ⟨n, rfl⟩ : ∃ n, fuel = n + 1 := ⟨fuel - 1, by simp at hf; omega⟩
    obtain ⟨a, v⟩ := x
    obtain ⟨h0, h1, h2⟩ := wf_tail (a, v) l hw
    have hh : headOr ((a, v) :: l) 0 = a := rfl
    have h0' : a ≠ 0 := h0
    have hs : seg (fun _ => none) ((a, v) :: l) 0 a = some ⟨v, headOr l 0⟩ := by simp [seg]
    simp only [destructor, hh, if_neg h0', hs, Option.bind_some, free_first a v l h1]
    exact ih n back h2 (by simpa using hf)

theorem heap_live (l : List (Nat × T)) (a : Nat) : ((repr l).heap a).isSome ↔ a ∈ ids l := by
  simp only [repr]
  induction l with
  | nil => simp [seg, ids]
  | cons x l ih =>
    simp only [seg, ids, List.map_cons, List.mem_cons]
    by_cases h : a = x.1
    · subst h; simp
    · rw [Function.update_of_ne h]
      rw [ih]; simp only [h, false_or]; rfl

theorem last_value (l : List (Nat × T)) (hw : Wf l) : getBack (repr l) = (values l).getLast? := by
  rcases List.eq_nil_or_concat l with rfl | ⟨l, ⟨b, w⟩, rfl⟩
  · rfl
  · rw [List.concat_eq_append] at hw ⊢
    obtain ⟨-, hb, -, -⟩ := wf_split l [] b w hw
    simp only [getBack, repr, lastOr_append, seg_at _ _ _ _ _ _ hb, Option.map_some]
    simp [values]

/-- C06: after every history with fresh node addresses and valid insert positions nothing undefined has happened; `isEmpty`,
`getSize`, `getFront`, `getBack` and iteration report the reference sequence; exactly its nodes are allocated; and the destructor
then frees every one of them, each once -/
theorem C06_linkedList_refines_sequence (cs : List (Call T)) (l : List (Nat × T)) (h : History OkSingle [] (cs.map opOf) l)
    (fuel : Nat) (hf : cs.length < fuel) :
    ∃ s, calls fuel State.init cs = some s ∧ isEmpty s = l.isEmpty ∧ getSize s.heap fuel s.front 0 = some l.length ∧
      iterate s.heap fuel s.front = some (values l) ∧ getFront s = (values l).head? ∧ getBack s = (values l).getLast? ∧
      (∀ a, (s.heap a).isSome ↔ a ∈ ids l) ∧ ∃ s', destructor fuel s = some s' ∧ ∀ a, s'.heap a = none := by
  have hlen : ∀ (ops : List (Op T)) (l₀ l : List (Nat × T)), History OkSingle l₀ ops l → l.length ≤ l₀.length + ops.length := by
    intro ops l₀ l h
    induction h with
    | nil => simp
    | cons l op ops l' _ _ ih => have := apply_length l op; simp only [List.length_cons]; omega
  obtain ⟨h1, hw⟩ := calls_repr cs fuel [] l (by simp [Wf, ids]) (by simpa using hf) h
  have hl : l.length < fuel := by have := hlen _ _ _ h; simp at this; omega
  have hit := iterate_seg (fun _ => none) l fuel hw hl
  refine ⟨repr l, h1, ?_, ?_, hit, ?_, last_value l hw, heap_live l, ⟨_, destructor_repr l fuel _ hw hl, fun _ => rfl⟩⟩
  · cases l with
    | nil => rfl
    | cons x l => simpa [isEmpty, repr, headOr, ids] using (wf_tail x l hw).1
  · rw [getSize_iterate]
    simp only [repr] at hit ⊢
    rw [hit]; simp [values]
  · cases l with
    | nil => rfl
    | cons x l => simp [getFront, repr, headOr, ids, seg, values]

/-- C06: in the state after any such history `remove` returns the iterator to the element behind the removed one; an iterator that
names no element is returned unchanged (or becomes the end iterator of the empty list) and nothing is removed -/
theorem C06_remove_returns_successor (cs : List (Call T)) (l : List (Nat × T)) (h : History OkSingle [] (cs.map opOf) l)
    (fuel : Nat) (hf : cs.length < fuel) (iter : Nat) :
    ∃ s s', calls fuel State.init cs = some s ∧ remove fuel iter s = some (s',
      if iter ∈ ids l then successor iter l else if l = [] then 0 else iter) ∧
      iterate s'.heap fuel s'.front = some (values (l.filter fun x => x.1 ≠ iter)) := by
  have hlen : ∀ (ops : List (Op T)) (l₀ l : List (Nat × T)), History OkSingle l₀ ops l → l.length ≤ l₀.length + ops.length := by
    intro ops l₀ l h
    induction h with
    | nil => simp
    | cons l op ops l' _ _ ih => have := apply_length l op; simp only [List.length_cons]; omega
  obtain ⟨h1, hw⟩ := calls_repr cs fuel [] l (by simp [Wf, ids]) (by simpa using hf) h
  have hl : l.length < fuel := by have := hlen _ _ _ h; simp at this; omega
  have hw' := (call_repr fuel l (.remove iter) hw hl trivial).2
  refine ⟨repr l, _, h1, remove_repr iter fuel l hw hl, ?_⟩
  refine iterate_seg (fun _ => none) _ fuel hw' (Nat.lt_of_le_of_lt (List.length_filter_le _ _) hl)

/-- a history that reuses the address of a removed node and inserts behind an element -/
def demo : List (Call Nat) :=
  [.append (fun _ => 99) 5 10, .prepend (fun _ => 5) 7 20, .insert (fun _ => 1) 7 9 30, .remove 5, .append (fun _ => 7) 5 40, .removeFront]

example : History OkSingle [] (demo.map opOf) [(9, 30), (5, 40)] := by
  refine .cons _ _ _ _ ⟨by decide, by decide⟩ (.cons _ _ _ _ ⟨by decide, by decide⟩ (.cons _ _ _ _ ⟨⟨by decide, by decide⟩, by decide⟩
    (.cons _ _ _ _ trivial (.cons _ _ _ _ ⟨by decide, by decide⟩ (.cons _ _ _ _ ?_ (.nil _))))))
  simp [OkSingle, Spec.Seq.apply, insertAfter, opOf]

example : (calls 10 State.init demo).bind (fun s => iterate s.heap 10 s.front) = some [30, 40] := by decide

end Props.LinkedList
