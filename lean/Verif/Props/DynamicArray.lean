import Verif.Model.DynamicArray
import Verif.Spec.Arrays
import Mathlib.Tactic.Common
import Mathlib.Tactic.Linarith
/-
C08: `modm::DynamicArray` refines sequences.
-/
set_option autoImplicit false
namespace Props.DynamicArray
open Modm.DynamicArray Spec.Arrays
variable {T : Type}

/-! ### single accesses -/

theorem construct_at (m : Mem T) (b : Nat) (p q : List (Option T)) (v : T) (n : Nat) (hn : n = p.length)
    (h : m b = some (p ++ none :: q)) : construct b n v m = some (Function.update m b (some (p ++ some v :: q))) := by
  subst hn; simp [construct, h]

theorem destroy_at (m : Mem T) (b : Nat) (p q : List (Option T)) (v : T) (n : Nat) (hn : n = p.length)
    (h : m b = some (p ++ some v :: q)) : destroy b n m = some (Function.update m b (some (p ++ none :: q))) := by
  subst hn; simp [destroy, h]

theorem get_at (m : Mem T) (b : Nat) (p q : List (Option T)) (x : Option T) (n : Nat) (hn : n = p.length)
    (h : m b = some (p ++ x :: q)) : peek m b n = x := by
  subst hn; simp [peek, h]

theorem loop_succ (n : Nat) (f : Nat → Mem T → Option (Mem T)) (m : Mem T) : loop (n + 1) f m = (loop n f m).bind (f n) := by
  simp only [loop, List.range_succ, List.foldlM_append, List.foldlM_cons, List.foldlM_nil]
  cases List.foldlM (fun m i => f i m) m (List.range n) with
  | none => rfl
  | some x => simp

/-! ### loops -/

theorem split_map (l : List T) (n : Nat) (h : n < l.length) : (l.drop n).map some = some l[n] :: (l.drop (n + 1)).map some := by
  rw [List.drop_eq_getElem_cons h, List.map_cons]

theorem take_map (l : List T) (n : Nat) (h : n < l.length) : (l.take (n + 1)).map some = (l.take n).map some ++ [some l[n]] := by
  rw [List.take_add_one, List.getElem?_eq_getElem h, List.map_append]; rfl

theorem destroyAll (m : Mem T) (b : Nat) (l : List T) (r : List (Option T)) (h : m b = some (l.map some ++ r)) :
    loop l.length (fun x => destroy b x) m = some (Function.update m b (some (List.replicate l.length none ++ r))) := by
  suffices H : ∀ n, n ≤ l.length → loop n (fun x => destroy b x) m =
      some (Function.update m b (some (List.replicate n none ++ ((l.drop n).map some ++ r)))) by
    have := H l.length (Nat.le_refl _)
    simpa using this
  intro n
  induction n with
  | zero => intro _; simp [loop, ← h]
  | succ n ih =>
    intro hn
    rw [loop_succ, ih (by omega), Option.bind_some]
    rw [destroy_at _ b (List.replicate n none) ((l.drop (n + 1)).map some ++ r) l[n] n (by simp)
      (by rw [Function.update_self, split_map l n (by omega)]; rfl)]
    rw [Function.update_idem, List.replicate_succ', List.append_assoc]
    rfl

theorem fillRep (m : Mem T) (a : Nat) (v : T) (c : Nat) (h : m a = some (List.replicate c none)) :
    ∀ n, n ≤ c → loop n (fun j => construct a j v) m =
      some (Function.update m a (some ((List.replicate n v).map some ++ List.replicate (c - n) none))) := by
  intro n
  induction n with
  | zero => intro _; simp [loop, ← h]
  | succ n ih =>
    intro hn
    rw [loop_succ, ih (by omega), Option.bind_some]
    rw [construct_at _ a ((List.replicate n v).map some) (List.replicate (c - (n + 1)) none) v n (by simp)
      (by rw [Function.update_self, show c - n = (c - (n + 1)) + 1 by omega, List.replicate_succ])]
    rw [Function.update_idem, List.replicate_succ', List.map_append, List.append_assoc]
    rfl

theorem fillList_ok (a : Nat) (vs : List T) : ∀ (m : Mem T) (p : List T) (c : Nat), vs.length ≤ c →
    m a = some (p.map some ++ List.replicate c none) →
    fillList a p.length vs m = some (Function.update m a (some ((p ++ vs).map some ++ List.replicate (c - vs.length) none))) := by
  induction vs with
  | nil => intro m p c _ h; simp [fillList, ← h]
  | cons v vs ih =>
    intro m p c hc h
    simp only [List.length_cons] at hc
    simp only [fillList]
    rw [construct_at m a (p.map some) (List.replicate (c - 1) none) v p.length (by simp)
      (by rw [h]; obtain ⟨d, rfl⟩ : ∃ d, c = d + 1 := ⟨c - 1, by omega⟩; rw [List.replicate_succ]; rfl), Option.bind_some]
    have := ih (Function.update m a (some (p.map some ++ some v :: List.replicate (c - 1) none))) (p ++ [v]) (c - 1) (by omega)
      (by rw [Function.update_self]; simp)
    rw [List.length_append, List.length_singleton] at this
    rw [this, Function.update_idem]
    congr 4
    · simp
    · simp only [List.length_cons]; congr 1; omega

theorem copyLoop (m : Mem T) (a b : Nat) (hab : a ≠ b) (l : List T) (r : List (Option T)) (c : Nat)
    (ha : m a = some (List.replicate c none)) (hb : m b = some (l.map some ++ r)) (hc : l.length ≤ c) :
    loop l.length (fun x m => (peek m b x).bind fun v => construct a x v m) m =
      some (Function.update m a (some (l.map some ++ List.replicate (c - l.length) none))) := by
  suffices H : ∀ n, n ≤ l.length → loop n (fun x m => (peek m b x).bind fun v => construct a x v m) m =
      some (Function.update m a (some ((l.take n).map some ++ List.replicate (c - n) none))) by
    have := H l.length (Nat.le_refl _)
    simpa using this
  intro n
  induction n with
  | zero => intro _; simp [loop, ← ha]
  | succ n ih =>
    intro hn
    have hg : peek (Function.update m a (some ((l.take n).map some ++ List.replicate (c - n) none))) b n = some l[n] := by
      refine get_at _ b ((l.take n).map some) ((l.drop (n + 1)).map some ++ r) (some l[n]) n (by simp; omega) ?_
      rw [Function.update_of_ne hab.symm, hb, ← List.cons_append, ← split_map l n (by omega), ← List.append_assoc, ← List.map_append,
        List.take_append_drop]
    rw [loop_succ, ih (by omega), Option.bind_some, hg, Option.bind_some]
    rw [construct_at _ a ((l.take n).map some) (List.replicate (c - (n + 1)) none) l[n] n (by simp; omega)
      (by rw [Function.update_self, show c - n = (c - (n + 1)) + 1 by omega, List.replicate_succ])]
    rw [Function.update_idem, take_map l n (by omega), List.append_assoc]
    rfl

theorem moveLoop (m : Mem T) (a b : Nat) (hab : a ≠ b) (l : List T) (r : List (Option T)) (c : Nat)
    (ha : m a = some (List.replicate c none)) (hb : m b = some (l.map some ++ r)) (hc : l.length ≤ c) :
    loop l.length (fun x m => (peek m b x).bind fun v => (construct a x v m).bind (destroy b x)) m =
      some (Function.update (Function.update m a (some (l.map some ++ List.replicate (c - l.length) none))) b
        (some (List.replicate l.length none ++ r))) := by
  suffices H : ∀ n, n ≤ l.length → loop n (fun x m => (peek m b x).bind fun v => (construct a x v m).bind (destroy b x)) m =
      some (Function.update (Function.update m a (some ((l.take n).map some ++ List.replicate (c - n) none))) b
        (some (List.replicate n none ++ ((l.drop n).map some ++ r)))) by
    have := H l.length (Nat.le_refl _)
    simpa using this
  intro n
  induction n with
  | zero =>
    intro _
    simp only [loop, List.range_zero, List.foldlM_nil, List.take_zero, List.map_nil, List.nil_append, Nat.sub_zero, ← ha, List.replicate_zero,
      List.drop_zero, ← hb, Function.update_eq_self]
    rfl
  | succ n ih =>
    intro hn
    rw [loop_succ, ih (by omega), Option.bind_some]
    rw [get_at _ b (List.replicate n none) ((l.drop (n + 1)).map some ++ r) (some l[n]) n (by simp)
      (by rw [Function.update_self, split_map l n (by omega)]; rfl), Option.bind_some]
    rw [construct_at _ a ((l.take n).map some) (List.replicate (c - (n + 1)) none) l[n] n (by simp; omega)
      (by rw [Function.update_of_ne hab, Function.update_self, show c - n = (c - (n + 1)) + 1 by omega, List.replicate_succ]),
      Option.bind_some]
    rw [Function.update_comm hab, Function.update_idem, Function.update_comm hab.symm]
    rw [destroy_at _ b (List.replicate n none) ((l.drop (n + 1)).map some ++ r) l[n] n (by simp)
      (by rw [Function.update_self, split_map l n (by omega)]; rfl)]
    rw [Function.update_idem, take_map l n (by omega), List.append_assoc, List.replicate_succ', List.append_assoc]
    rfl

/-! ### the invariant -/

section
variable (W k : Nat)

/-- array object `t` holds the sequence `l` -/
def Holds (m : Mem T) (t : Arr) (l : List T) : Prop :=
  t.size = l.length ∧ l.length ≤ t.capacity ∧ t.capacity * k < 2 ^ W ∧
    ((t.values = 0 ∧ t.capacity = 0) ∨
      (t.values ≠ 0 ∧ m t.values = some (l.map some ++ List.replicate (t.capacity - l.length) none)))

/-- the arrays hold the sequences of the store, own disjoint buffers, and nothing else is allocated -/
structure Inv (s : State T) (σ : Store T) : Prop where
  dead : ∀ i, σ i = none → s.arr i = none
  live : ∀ i l, σ i = some l → ∃ t, s.arr i = some t ∧ Holds W k s.mem t l
  sep : ∀ i j t u, s.arr i = some t → s.arr j = some u → t.values = u.values → t.values ≠ 0 → i = j
  own : ∀ b, s.mem b ≠ none → b ≠ 0 ∧ ∃ i t, s.arr i = some t ∧ t.values = b

def valuesOf : Option Arr → Nat
  | none => 0
  | some t => t.values

variable {W k}

theorem Holds.congr {m m' : Mem T} {t : Arr} {l : List T} (h : Holds W k m t l) (e : t.values ≠ 0 → m' t.values = m t.values) :
    Holds W k m' t l := by
  obtain ⟨h1, h2, h3, h4⟩ := h
  refine ⟨h1, h2, h3, ?_⟩
  rcases h4 with h4 | ⟨h4, h5⟩
  · exact Or.inl h4
  · exact Or.inr ⟨h4, by rw [e h4, h5]⟩

theorem inv_write {s : State T} {σ : Store T} (h : Inv W k s σ) (m' : Mem T) (i : Nat) (t' : Option Arr) (l' : Option (List T))
    (hn : l' = none → t' = none) (hl : ∀ l, l' = some l → ∃ t, t' = some t ∧ Holds W k m' t l)
    (h0 : m' 0 = none)
    (hsame : ∀ b, b ≠ valuesOf (s.arr i) → b ≠ valuesOf t' → m' b = s.mem b)
    (hold : valuesOf (s.arr i) ≠ valuesOf t' → m' (valuesOf (s.arr i)) = none)
    (hnew : valuesOf t' ≠ 0 → valuesOf t' = valuesOf (s.arr i) ∨ s.mem (valuesOf t') = none) :
    Inv W k ⟨m', Function.update s.arr i t'⟩ (write σ i l') := by
  -- buffers of other arrays are neither the old nor the new one
  have hother : ∀ j u, j ≠ i → s.arr j = some u → u.values ≠ 0 → (∃ l, σ j = some l) → u.values ≠ valuesOf (s.arr i) ∧ u.values ≠ valuesOf t' := by
    intro j u hj hu hu0 ⟨l, hσ⟩
    have h1 : u.values ≠ valuesOf (s.arr i) := by
      intro e
      cases hi : s.arr i with
      | none => rw [hi] at e; exact hu0 e
      | some t => rw [hi] at e; exact hj (h.sep j i u t hu hi e hu0)
    refine ⟨h1, fun e => ?_⟩
    rcases hnew (e ▸ hu0) with h2 | h2
    · exact h1 (e.trans h2)
    · obtain ⟨u', hu', hH⟩ := h.live j l hσ
      rw [hu] at hu'; cases hu'
      rcases hH.2.2.2 with h3 | ⟨-, h3⟩
      · exact hu0 h3.1
      · rw [e, h2] at h3; cases h3
  have hσ : ∀ j u, s.arr j = some u → ∃ l, σ j = some l := by
    intro j u hu
    cases hj : σ j with
    | none => rw [h.dead j hj] at hu; cases hu
    | some l => exact ⟨l, rfl⟩
  constructor
  · intro j hj
    by_cases hji : j = i
    · subst hji
      simp only [write, if_true] at hj
      simp [hn hj]
    · simp only [write, if_neg hji] at hj
      simp only [Function.update_of_ne hji]
      exact h.dead j hj
  · intro j l hj
    by_cases hji : j = i
    · subst hji
      simp only [write, if_true] at hj
      simpa using hl l hj
    · simp only [write, if_neg hji] at hj
      obtain ⟨u, hu, hH⟩ := h.live j l hj
      refine ⟨u, by simpa [Function.update_of_ne hji] using hu, hH.congr fun hu0 => ?_⟩
      obtain ⟨h1, h2⟩ := hother j u hji hu hu0 ⟨l, hj⟩
      exact hsame _ h1 h2
  · intro j j' t u ht hu e e0
    simp only at ht hu
    by_cases h1 : j = i <;> by_cases h2 : j' = i
    · rw [h1, h2]
    · subst h1
      rw [Function.update_self] at ht
      rw [Function.update_of_ne h2] at hu
      have := (hother j' u h2 hu (e ▸ e0) (hσ _ _ hu)).2
      rw [ht] at this
      exact absurd e.symm this
    · subst h2
      rw [Function.update_self] at hu
      rw [Function.update_of_ne h1] at ht
      have := (hother j t h1 ht e0 (hσ _ _ ht)).2
      rw [hu] at this
      exact absurd e this
    · rw [Function.update_of_ne h1] at ht
      rw [Function.update_of_ne h2] at hu
      exact h.sep j j' t u ht hu e e0
  · intro b hb
    simp only at hb
    refine ⟨fun e => hb (e ▸ h0), ?_⟩
    by_cases h1 : b = valuesOf t'
    · cases t' with
      | none => exact absurd (h1 ▸ h0) hb
      | some t => exact ⟨i, t, by simp, h1.symm⟩
    · by_cases h2 : b = valuesOf (s.arr i)
      · exact absurd (h2 ▸ hold (fun e => h1 (h2.trans e))) hb
      · rw [hsame b h2 h1] at hb
        obtain ⟨-, j, t, ht, hv⟩ := h.own b hb
        refine ⟨j, t, ?_, hv⟩
        have : j ≠ i := by rintro rfl; rw [ht] at h2; exact h2 hv.symm
        simpa [Function.update_of_ne this] using ht

theorem mem_zero {s : State T} {σ : Store T} (h : Inv W k s σ) : s.mem 0 = none := by
  by_contra hc; exact (h.own 0 hc).1 rfl

/-- the destruction of all elements and the release of the buffer -/
theorem release {s : State T} {σ : Store T} (h : Inv W k s σ) (i : Nat) (l : List T) (hl : σ i = some l) :
    ∃ t m m', s.arr i = some t ∧ loop t.size (fun x => destroy t.values x) s.mem = some m ∧ dealloc t.values m = some m' ∧
      m' t.values = none ∧ (∀ b, b ≠ t.values → m' b = s.mem b) := by
  obtain ⟨t, ht, h1, h2, h3, h4⟩ := h.live i l hl
  rcases h4 with ⟨h4, h5⟩ | ⟨h4, h5⟩
  · have hl0 : l.length = 0 := by omega
    refine ⟨t, s.mem, s.mem, ht, ?_, by simp [dealloc, h4], by rw [h4]; exact mem_zero h, fun _ _ => rfl⟩
    rw [h1, hl0]; rfl
  · obtain ⟨c, hc⟩ : ∃ c, c = List.replicate l.length none ++ List.replicate (t.capacity - l.length) (none : Option T) := ⟨_, rfl⟩
    refine ⟨t, Function.update s.mem t.values (some c), Function.update (Function.update s.mem t.values (some c)) t.values none, ht,
      ?_, ?_, by simp, fun b hb => by rw [Function.update_of_ne hb, Function.update_of_ne hb]⟩
    · rw [h1, hc]; exact destroyAll s.mem t.values l _ h5
    · simp only [dealloc, if_neg h4, Function.update_self, Option.bind_some]
      rw [if_pos]
      simp [hc, List.all_eq_true]

theorem capacity_cells {n : Nat} (hk : 0 < k) (hn : n * k < 2 ^ W) : wrap W (n * k) / k = n := by
  rw [wrap, Nat.mod_eq_of_lt hn, Nat.mul_div_cancel _ hk]

theorem alloc_at {n a : Nat} (hk : 0 < k) (hn : n * k < 2 ^ W) (m : Mem T) : alloc W k a n m a = some (List.replicate n none) := by
  rw [alloc, Function.update_self, capacity_cells hk hn]

theorem alloc_other {n a b : Nat} (h : b ≠ a) (m : Mem T) : alloc W k a n m b = m b := by
  rw [alloc, Function.update_of_ne h]

theorem write_self (σ : Store T) (i : Nat) (l : List T) (h : σ i = some l) : write σ i (some l) = σ := by
  funext x
  simp only [write]
  split
  · next e => rw [e, h]
  · rfl

theorem small {n : Nat} (hk : 0 < k) (hn : n * k < 2 ^ W) : n < 2 ^ W := Nat.lt_of_le_of_lt (Nat.le_mul_of_pos_right n hk) hn

theorem relocate_ok {s : State T} {σ : Store T} (h : Inv W k s σ) (hk : 0 < k) (i n a : Nat) (l : List T) (hl : σ i = some l)
    (hn : n * k < 2 ^ W) (hln : l.length ≤ n) (ha : a ≠ 0) (hfr : s.mem a = none) :
    ∃ s', relocate W k i n a s = some s' ∧ Inv W k s' σ ∧ s'.arr i = some ⟨l.length, n, a⟩ := by
  obtain ⟨t, ht, h1, h2, h3, h4⟩ := h.live i l hl
  have hv : valuesOf (s.arr i) = t.values := by rw [ht]; rfl
  rcases h4 with ⟨h4, h5⟩ | ⟨h4, h5⟩
  · have hl0 : l = [] := List.length_eq_zero_iff.1 (by omega)
    subst hl0
    refine ⟨⟨alloc W k a n s.mem, Function.update s.arr i (some ⟨0, n, a⟩)⟩, ?_, ?_, by simp⟩
    · have h10 : t.size = 0 := h1
      simp only [relocate, ht, Option.bind_some, h10, h4]
      simp [loop, dealloc]
    · have := inv_write h (alloc W k a n s.mem) i (some ⟨0, n, a⟩) (some []) (by simp)
        (by
          intro l e; cases e
          refine ⟨_, rfl, rfl, Nat.zero_le _, hn, Or.inr ⟨ha, ?_⟩⟩
          simpa using alloc_at hk hn s.mem)
        (by rw [alloc_other (Ne.symm ha)]; exact mem_zero h)
        (by intro b _ hb; exact alloc_other hb _)
        (by intro _; rw [hv, h4, alloc_other (Ne.symm ha)]; exact mem_zero h)
        (by intro _; exact Or.inr hfr)
      rwa [write_self σ i [] hl] at this
  · have hat : a ≠ t.values := by rintro rfl; rw [hfr] at h5; cases h5
    have hloop := moveLoop (alloc W k a n s.mem) a t.values hat l (List.replicate (t.capacity - l.length) none) n (alloc_at hk hn _)
      (by rw [alloc_other hat.symm]; exact h5) hln
    obtain ⟨m, hm⟩ : ∃ m, m = Function.update (Function.update (alloc W k a n s.mem) a (some (l.map some ++ List.replicate (n - l.length) none)))
        t.values (some (List.replicate l.length none ++ List.replicate (t.capacity - l.length) none)) := ⟨_, rfl⟩
    rw [← hm, ← h1] at hloop
    have hd : dealloc t.values m = some (Function.update m t.values none) := by
      have : m t.values = some (List.replicate l.length none ++ List.replicate (t.capacity - l.length) none) := by rw [hm]; simp
      simp only [dealloc, if_neg h4, this, Option.bind_some]
      rw [if_pos]
      simp [List.all_eq_true]
    have hma : m a = some (l.map some ++ List.replicate (n - l.length) none) := by
      rw [hm, Function.update_of_ne hat, Function.update_self]
    have hmo : ∀ b, b ≠ a → b ≠ t.values → m b = s.mem b := by
      intro b hb1 hb2
      rw [hm, Function.update_of_ne hb2, Function.update_of_ne hb1, alloc_other hb1]
    refine ⟨⟨Function.update m t.values none, Function.update s.arr i (some ⟨t.size, n, a⟩)⟩, ?_, ?_, by simp [h1]⟩
    · simp only [relocate, ht, Option.bind_some, hloop, hd, Option.map_some]
    · have := inv_write h (Function.update m t.values none) i (some ⟨t.size, n, a⟩) (some l) (by simp)
        (by
          intro l' e; cases e
          refine ⟨_, rfl, h1, hln, hn, Or.inr ⟨ha, ?_⟩⟩
          simp only
          rw [Function.update_of_ne hat, hma])
        (by rw [Function.update_of_ne (Ne.symm h4), hmo 0 (Ne.symm ha) (Ne.symm h4)]; exact mem_zero h)
        (by
          intro b hb1 hb2
          rw [hv] at hb1
          rw [Function.update_of_ne hb1]
          exact hmo b hb2 hb1)
        (by intro _; rw [hv, Function.update_self])
        (by intro _; exact Or.inr hfr)
      rwa [write_self σ i l hl] at this

theorem pushBack_ok {s : State T} {σ : Store T} (h : Inv W k s σ) (hk : 0 < k) (i : Nat) (l : List T) (hl : σ i = some l) (r : Ref T) (v : T)
    (hr : r.read s.mem = some v) (hc : ∀ t, s.arr i = some t → l.length < t.capacity) :
    ∃ s', pushBack W i r s = some s' ∧ Inv W k s' (write σ i (some (l ++ [v]))) := by
  obtain ⟨t, ht, h1, h2, h3, h4⟩ := h.live i l hl
  have hlt := hc t ht
  have hv : valuesOf (s.arr i) = t.values := by rw [ht]; rfl
  rcases h4 with ⟨h4, h5⟩ | ⟨h4, h5⟩
  · omega
  · have hcon := construct_at s.mem t.values (l.map some) (List.replicate (t.capacity - (l.length + 1)) none) v t.size (by simpa using h1)
      (by rw [h5, show t.capacity - l.length = (t.capacity - (l.length + 1)) + 1 by omega, List.replicate_succ])
    have hw : wrap W (t.size + 1) = l.length + 1 := by
      rw [wrap, h1, Nat.mod_eq_of_lt]
      have := small hk h3; omega
    refine ⟨⟨Function.update s.mem t.values (some (l.map some ++ some v :: List.replicate (t.capacity - (l.length + 1)) none)),
      Function.update s.arr i (some ⟨l.length + 1, t.capacity, t.values⟩)⟩, ?_, ?_⟩
    · simp only [pushBack, ht, Option.bind_some, hr, hcon, Option.map_some, hw]
    · apply inv_write h
      · simp
      · intro l' e; cases e
        refine ⟨_, rfl, by simp, by simp only [List.length_append, List.length_singleton]; omega, h3, Or.inr ⟨h4, ?_⟩⟩
        simp
      · rw [Function.update_of_ne (Ne.symm h4)]; exact mem_zero h
      · intro b hb _; rw [hv] at hb; rw [Function.update_of_ne hb]
      · intro e; exact absurd hv e
      · intro _; exact Or.inl hv.symm

end

/-! ### all operations -/

/-- the sequence operation a call performs -/
def opOf : Call T → Op T
  | .create i => .create i
  | .createCap i _ _ => .create i
  | .createRep i n v _ => .fill i n v
  | .createList i vs _ => .ofList i vs
  | .copy i j _ => .copy i j
  | .destructor i => .destroy i
  | .assign i j _ => .assign i j
  | .reserve i n _ => .reserve i n
  | .clear i => .clear i
  | .removeAll i => .clear i
  | .append i v _ => .append i v
  | .removeBack i => .removeBack i
  | .setAt i x v => .set i x v

/-- no buffer of more bytes than `std::size_t` can count is asked for -/
def Fits (W k : Nat) (σ : Store T) : Call T → Prop
  | .createCap _ n _ => n * k < 2 ^ W
  | .createRep _ n _ _ => n * k < 2 ^ W
  | .createList _ vs _ => vs.length * k < 2 ^ W
  | .reserve i n _ => ∀ l, σ i = some l → (l.length + n) * k < 2 ^ W
  | .append i _ _ => ∀ l, σ i = some l → (l.length + (l.length + 1) / 2 + 1) * k < 2 ^ W
  | _ => True

/-- the allocator returns unused memory; `operator =` allocates after it has released its own buffer -/
def Fresh (s : State T) : Call T → Prop
  | .createCap _ _ a => a ≠ 0 ∧ s.mem a = none
  | .createRep _ _ _ a => a ≠ 0 ∧ s.mem a = none
  | .createList _ _ a => a ≠ 0 ∧ s.mem a = none
  | .copy _ _ a => a ≠ 0 ∧ s.mem a = none
  | .assign i _ a => a ≠ 0 ∧ (s.mem a = none ∨ ∃ t, s.arr i = some t ∧ t.values = a)
  | .reserve _ _ a => a ≠ 0 ∧ s.mem a = none
  | .append _ _ a => a ≠ 0 ∧ s.mem a = none
  | _ => True

theorem step_ok {W k : Nat} (hk : 0 < k) (hW : k < 2 ^ W) {s : State T} {σ σ' : Store T} (h : Inv W k s σ) (c : Call T)
    (hop : apply σ (opOf c) = some σ') (hfit : Fits W k σ c) (hfr : Fresh s c) : ∃ s', call W k s c = some s' ∧ Inv W k s' σ' := by
  cases c with
  | create i =>
    simp only [opOf, Spec.Arrays.apply] at hop
    cases hi : σ i with
    | some l => rw [hi] at hop; cases hop
    | none =>
      rw [hi] at hop; cases hop
      have hd := h.dead i hi
      refine ⟨_, rfl, inv_write h s.mem i (some ⟨0, 0, 0⟩) (some []) (by simp) ?_ (mem_zero h) (fun _ _ _ => rfl) ?_ ?_⟩
      · intro l e; cases e
        exact ⟨_, rfl, rfl, Nat.le_refl _, by simp, Or.inl ⟨rfl, rfl⟩⟩
      · intro e; rw [hd] at e; exact absurd rfl e
      · intro e; exact absurd rfl e
  | createCap i n a =>
    obtain ⟨ha, hfr⟩ := hfr
    simp only [opOf, Spec.Arrays.apply] at hop
    cases hi : σ i with
    | some l => rw [hi] at hop; cases hop
    | none =>
      rw [hi] at hop; cases hop
      have hd := h.dead i hi
      refine ⟨_, rfl, inv_write h (alloc W k a n s.mem) i (some ⟨0, n, a⟩) (some []) (by simp) ?_ ?_ ?_ ?_ ?_⟩
      · intro l e; cases e
        refine ⟨_, rfl, rfl, Nat.zero_le _, hfit, Or.inr ⟨ha, ?_⟩⟩
        simpa using alloc_at hk hfit s.mem
      · rw [alloc_other (Ne.symm ha)]; exact mem_zero h
      · intro b _ hb; exact alloc_other hb _
      · intro _; rw [hd]; show alloc W k a n s.mem 0 = none; rw [alloc_other (Ne.symm ha)]; exact mem_zero h
      · intro _; exact Or.inr hfr
  | createRep i n v a =>
    obtain ⟨ha, hfr⟩ := hfr
    simp only [opOf, Spec.Arrays.apply] at hop
    cases hi : σ i with
    | some l => rw [hi] at hop; cases hop
    | none =>
      rw [hi] at hop; cases hop
      have hd := h.dead i hi
      have hf := fillRep (alloc W k a n s.mem) a v n (alloc_at hk hfit _) n (Nat.le_refl _)
      obtain ⟨m, hm⟩ : ∃ m, m = Function.update (alloc W k a n s.mem) a (some ((List.replicate n v).map some ++ List.replicate (n - n) none)) :=
        ⟨_, rfl⟩
      rw [← hm] at hf
      have hmo : ∀ b, b ≠ a → m b = s.mem b := fun b hb => by rw [hm, Function.update_of_ne hb, alloc_other hb]
      refine ⟨⟨m, Function.update s.arr i (some ⟨n, n, a⟩)⟩, by simp [call, createRep, hf],
        inv_write h m i (some ⟨n, n, a⟩) (some (List.replicate n v)) (by simp) ?_ ?_ ?_ ?_ ?_⟩
      · intro l e; cases e
        refine ⟨_, rfl, by simp, by simp, hfit, Or.inr ⟨ha, ?_⟩⟩
        simp [hm]
      · rw [hmo 0 (Ne.symm ha)]; exact mem_zero h
      · intro b _ hb; exact hmo b hb
      · intro _; rw [hd]; show m 0 = none; rw [hmo 0 (Ne.symm ha)]; exact mem_zero h
      · intro _; exact Or.inr hfr
  | createList i vs a =>
    obtain ⟨ha, hfr⟩ := hfr
    simp only [opOf, Spec.Arrays.apply] at hop
    cases hi : σ i with
    | some l => rw [hi] at hop; cases hop
    | none =>
      rw [hi] at hop; cases hop
      have hd := h.dead i hi
      have hf := fillList_ok a vs (alloc W k a vs.length s.mem) [] vs.length (Nat.le_refl _) (by simpa using alloc_at hk hfit s.mem)
      obtain ⟨m, hm⟩ : ∃ m, m = Function.update (alloc W k a vs.length s.mem) a
          (some (([] ++ vs).map some ++ List.replicate (vs.length - vs.length) none)) := ⟨_, rfl⟩
      rw [← hm, List.length_nil] at hf
      have hmo : ∀ b, b ≠ a → m b = s.mem b := fun b hb => by rw [hm, Function.update_of_ne hb, alloc_other hb]
      refine ⟨⟨m, Function.update s.arr i (some ⟨vs.length, vs.length, a⟩)⟩, by simp [call, createList, hf],
        inv_write h m i (some ⟨vs.length, vs.length, a⟩) (some vs) (by simp) ?_ ?_ ?_ ?_ ?_⟩
      · intro l e; cases e
        refine ⟨_, rfl, rfl, Nat.le_refl _, hfit, Or.inr ⟨ha, ?_⟩⟩
        simp [hm]
      · rw [hmo 0 (Ne.symm ha)]; exact mem_zero h
      · intro b _ hb; exact hmo b hb
      · intro _; rw [hd]; show m 0 = none; rw [hmo 0 (Ne.symm ha)]; exact mem_zero h
      · intro _; exact Or.inr hfr
  | copy i j a =>
    obtain ⟨ha, hfr⟩ := hfr
    simp only [opOf, Spec.Arrays.apply] at hop
    cases hi : σ i with
    | some l => rw [hi] at hop; cases hop
    | none =>
      cases hj : σ j with
      | none => rw [hi, hj] at hop; cases hop
      | some l =>
        rw [hi, hj] at hop; cases hop
        have hd := h.dead i hi
        obtain ⟨t, ht, h1, h2, h3, h4⟩ := h.live j l hj
        obtain ⟨m, hm, hma, hmo⟩ : ∃ m, loop t.size (fun x m => (peek m t.values x).bind fun v => construct a x v m)
            (alloc W k a t.capacity s.mem) = some m ∧ m a = some (l.map some ++ List.replicate (t.capacity - l.length) none) ∧
            ∀ b, b ≠ a → m b = s.mem b := by
          rcases h4 with ⟨h4, h5⟩ | ⟨h4, h5⟩
          · have hl0 : l = [] := List.length_eq_zero_iff.1 (by omega)
            subst hl0
            have h10 : t.size = 0 := h1
            refine ⟨alloc W k a t.capacity s.mem, by rw [h10]; rfl, ?_, fun b hb => alloc_other hb _⟩
            simpa using alloc_at hk h3 s.mem
          · have hat : a ≠ t.values := by rintro rfl; rw [hfr] at h5; cases h5
            have hcl := copyLoop (alloc W k a t.capacity s.mem) a t.values hat l _ t.capacity (alloc_at hk h3 _)
              (by rw [alloc_other hat.symm]; exact h5) h2
            rw [← h1] at hcl
            refine ⟨_, hcl, by simp [h1], fun b hb => ?_⟩
            rw [Function.update_of_ne hb, alloc_other hb]
        refine ⟨⟨m, Function.update s.arr i (some ⟨t.size, t.capacity, a⟩)⟩, by simp [call, copy, ht, hm],
          inv_write h m i (some ⟨t.size, t.capacity, a⟩) (some l) (by simp) ?_ ?_ ?_ ?_ ?_⟩
        · intro l' e; cases e
          exact ⟨_, rfl, h1, h2, h3, Or.inr ⟨ha, hma⟩⟩
        · rw [hmo 0 (Ne.symm ha)]; exact mem_zero h
        · intro b _ hb; exact hmo b hb
        · intro _; rw [hd]; show m 0 = none; rw [hmo 0 (Ne.symm ha)]; exact mem_zero h
        · intro _; exact Or.inr hfr
  | destructor i =>
    simp only [opOf, Spec.Arrays.apply] at hop
    cases hi : σ i with
    | none => rw [hi] at hop; cases hop
    | some l =>
      rw [hi] at hop; cases hop
      obtain ⟨t, m, m', ht, hm, hd, hz, ho⟩ := release h i l hi
      have hv : valuesOf (s.arr i) = t.values := by rw [ht]; rfl
      have h0 : m' 0 = none := by
        by_cases e : t.values = 0
        · rw [← e]; exact hz
        · rw [ho 0 (Ne.symm e)]; exact mem_zero h
      refine ⟨⟨m', Function.update s.arr i none⟩, by simp [call, destructor, ht, hm, hd], inv_write h m' i none none (fun _ => rfl) (by simp) h0 ?_ ?_ ?_⟩
      · intro b hb _; rw [hv] at hb; exact ho b hb
      · intro _; rw [hv]; exact hz
      · intro e; exact absurd rfl e
  | assign i j a =>
    obtain ⟨ha, hfr⟩ := hfr
    simp only [opOf, Spec.Arrays.apply] at hop
    cases hi : σ i with
    | none => rw [hi] at hop; cases hop
    | some li =>
      cases hj : σ j with
      | none => rw [hi, hj] at hop; cases hop
      | some l =>
        rw [hi, hj] at hop
        simp only at hop
        by_cases hij : i = j
        · rw [if_pos hij] at hop; cases hop
        · rw [if_neg hij] at hop; cases hop
          obtain ⟨t, m, m', ht, hm, hd, hz, ho⟩ := release h i li hi
          have hv : valuesOf (s.arr i) = t.values := by rw [ht]; rfl
          obtain ⟨o, hoj, h1, h2, h3, h4⟩ := h.live j l hj
          have h0 : m' 0 = none := by
            by_cases e : t.values = 0
            · rw [← e]; exact hz
            · rw [ho 0 (Ne.symm e)]; exact mem_zero h
          have hma0 : m' a = none := by
            by_cases e : a = t.values
            · rw [e]; exact hz
            · rw [ho a e]
              rcases hfr with hfr | ⟨t', ht', e'⟩
              · exact hfr
              · rw [ht] at ht'; cases ht'; exact absurd e'.symm e
          obtain ⟨m2, hm2, hma, hmo⟩ : ∃ m2, loop o.size (fun x m => (peek m o.values x).bind fun v => construct a x v m)
              (alloc W k a o.capacity m') = some m2 ∧ m2 a = some (l.map some ++ List.replicate (o.capacity - l.length) none) ∧
              ∀ b, b ≠ a → m2 b = m' b := by
            rcases h4 with ⟨h4, h5⟩ | ⟨h4, h5⟩
            · have hl0 : l = [] := List.length_eq_zero_iff.1 (by omega)
              subst hl0
              have h10 : o.size = 0 := h1
              refine ⟨alloc W k a o.capacity m', by rw [h10]; rfl, ?_, fun b hb => alloc_other hb _⟩
              simpa using alloc_at hk h3 m'
            · have hot : o.values ≠ t.values := fun e => hij (h.sep i j t o ht hoj e.symm (e ▸ h4))
              have hat : a ≠ o.values := by rintro rfl; rw [ho _ hot, h5] at hma0; cases hma0
              have hcl := copyLoop (alloc W k a o.capacity m') a o.values hat l _ o.capacity (alloc_at hk h3 _)
                (by rw [alloc_other hat.symm, ho _ hot]; exact h5) h2
              rw [← h1] at hcl
              refine ⟨_, hcl, by simp [h1], fun b hb => ?_⟩
              rw [Function.update_of_ne hb, alloc_other hb]
          refine ⟨⟨m2, Function.update s.arr i (some ⟨o.size, o.capacity, a⟩)⟩, ?_,
            inv_write h m2 i (some ⟨o.size, o.capacity, a⟩) (some l) (by simp) ?_ ?_ ?_ ?_ ?_⟩
          · simp [call, assign, ht, hm, hd, hoj, Function.update_of_ne (Ne.symm hij), hm2]
          · intro l' e; cases e
            exact ⟨_, rfl, h1, h2, h3, Or.inr ⟨ha, hma⟩⟩
          · rw [hmo 0 (Ne.symm ha)]; exact h0
          · intro b hb hb'; rw [hv] at hb; rw [hmo b hb']; exact ho b hb
          · intro e; rw [hv] at e ⊢; rw [hmo _ e]; exact hz
          · intro _; rw [hv]
            rcases hfr with hfr | ⟨t', ht', e'⟩
            · exact Or.inr hfr
            · rw [ht] at ht'; cases ht'; exact Or.inl e'.symm
  | reserve i n a =>
    obtain ⟨ha, hfr⟩ := hfr
    simp only [opOf, Spec.Arrays.apply] at hop
    cases hi : σ i with
    | none => rw [hi] at hop; cases hop
    | some l =>
      rw [hi] at hop; cases hop
      obtain ⟨t, ht, h1, h2, h3, h4⟩ := h.live i l hi
      have hfit' := hfit l hi
      by_cases hc : n ≤ t.capacity - t.size
      · exact ⟨s, by simp [call, reserve, ht, hc], h⟩
      · obtain ⟨s', hs', hI, -⟩ := relocate_ok h hk i (wrap W (t.size + n)) a l hi
          (by rw [h1, wrap, Nat.mod_eq_of_lt (small hk hfit')]; exact hfit')
          (by rw [h1, wrap, Nat.mod_eq_of_lt (small hk hfit')]; omega) ha hfr
        exact ⟨s', by simp [call, reserve, ht, hc, hs'], hI⟩
  | clear i =>
    simp only [opOf, Spec.Arrays.apply] at hop
    cases hi : σ i with
    | none => rw [hi] at hop; cases hop
    | some l =>
      rw [hi] at hop; cases hop
      obtain ⟨t, m, m', ht, hm, hd, hz, ho⟩ := release h i l hi
      have hv : valuesOf (s.arr i) = t.values := by rw [ht]; rfl
      have h0 : m' 0 = none := by
        by_cases e : t.values = 0
        · rw [← e]; exact hz
        · rw [ho 0 (Ne.symm e)]; exact mem_zero h
      refine ⟨⟨m', Function.update s.arr i (some ⟨0, 0, 0⟩)⟩, by simp [call, clear, ht, hm, hd],
        inv_write h m' i (some ⟨0, 0, 0⟩) (some []) (by simp) ?_ h0 ?_ ?_ ?_⟩
      · intro l e; cases e
        exact ⟨_, rfl, rfl, Nat.le_refl _, by simp, Or.inl ⟨rfl, rfl⟩⟩
      · intro b hb _; rw [hv] at hb; exact ho b hb
      · intro _; rw [hv]; exact hz
      · intro e; exact absurd rfl e
  | removeAll i =>
    simp only [opOf, Spec.Arrays.apply] at hop
    cases hi : σ i with
    | none => rw [hi] at hop; cases hop
    | some l =>
      rw [hi] at hop; cases hop
      obtain ⟨t, ht, h1, h2, h3, h4⟩ := h.live i l hi
      have hv : valuesOf (s.arr i) = t.values := by rw [ht]; rfl
      obtain ⟨m, hm, hmv, ho⟩ : ∃ m, loop t.size (fun x => destroy t.values x) s.mem = some m ∧
          (t.values ≠ 0 → m t.values = some (List.replicate t.capacity none)) ∧ ∀ b, b ≠ t.values ∨ b = 0 → m b = s.mem b := by
        rcases h4 with ⟨h4, h5⟩ | ⟨h4, h5⟩
        · have h10 : t.size = 0 := by omega
          exact ⟨s.mem, by rw [h10]; rfl, fun e => absurd h4 e, fun _ _ => rfl⟩
        · have hda := destroyAll s.mem t.values l _ h5
          rw [← h1] at hda
          refine ⟨_, hda, fun _ => ?_, fun b hb => ?_⟩
          · rw [Function.update_self, List.replicate_append_replicate]
            congr 2; omega
          · rw [Function.update_of_ne]
            rcases hb with hb | hb
            · exact hb
            · rw [hb]; exact Ne.symm h4
      have h0 : m 0 = none := by rw [ho 0 (Or.inr rfl)]; exact mem_zero h
      refine ⟨⟨m, Function.update s.arr i (some ⟨0, t.capacity, t.values⟩)⟩, by simp [call, removeAll, ht, hm],
        inv_write h m i (some ⟨0, t.capacity, t.values⟩) (some []) (by simp) ?_ h0 ?_ ?_ ?_⟩
      · intro l e; cases e
        refine ⟨_, rfl, rfl, Nat.zero_le _, h3, ?_⟩
        rcases h4 with h4 | ⟨h4, -⟩
        · exact Or.inl h4
        · exact Or.inr ⟨h4, by simpa using hmv h4⟩
      · intro b hb _; rw [hv] at hb; exact ho b (Or.inl hb)
      · intro e; exact absurd hv e
      · intro _; exact Or.inl hv.symm
  | append i v a =>
    obtain ⟨ha, hfr⟩ := hfr
    simp only [opOf, Spec.Arrays.apply] at hop
    cases hi : σ i with
    | none => rw [hi] at hop; cases hop
    | some l =>
      rw [hi] at hop; cases hop
      obtain ⟨t, ht, h1, h2, h3, h4⟩ := h.live i l hi
      have hfit' := hfit l hi
      have hs := small hk hfit'
      by_cases hc : t.capacity = t.size
      · have hg : grown W t.size = if l.length = 0 then 1 else l.length + (l.length + 1) / 2 := by
          simp only [grown, wrap, h1]
          rw [Nat.mod_eq_of_lt (show l.length + 1 < 2 ^ W by omega), Nat.mod_eq_of_lt (show l.length + (l.length + 1) / 2 < 2 ^ W by omega)]
          by_cases h0 : l.length = 0
          · simp [h0]
          · rw [if_neg (by omega), if_neg h0]
        have hgl : l.length < grown W t.size ∧ grown W t.size ≤ l.length + (l.length + 1) / 2 + 1 := by
          rw [hg]; split <;> constructor <;> omega
        obtain ⟨s', hs', hI, ht'⟩ := relocate_ok h hk i (grown W t.size) a l hi
          (Nat.lt_of_le_of_lt (Nat.mul_le_mul_right k hgl.2) hfit') (by omega) ha hfr
        obtain ⟨s'', hs'', hI'⟩ := pushBack_ok hI hk i l hi (.val v) v rfl (by
          intro u hu; rw [ht'] at hu; cases hu; exact hgl.1)
        exact ⟨s'', by simp [call, append, ht, hc, hs', hs''], hI'⟩
      · obtain ⟨s'', hs'', hI'⟩ := pushBack_ok h hk i l hi (.val v) v rfl (by
          intro u hu; rw [ht] at hu; cases hu; omega)
        exact ⟨s'', by simp [call, append, ht, hc, hs''], hI'⟩
  | removeBack i =>
    simp only [opOf, Spec.Arrays.apply] at hop
    cases hi : σ i with
    | none => rw [hi] at hop; cases hop
    | some l =>
      rw [hi] at hop
      simp only at hop
      by_cases hne : l = []
      · rw [if_pos hne] at hop; cases hop
      · rw [if_neg hne] at hop; cases hop
        rcases List.eq_nil_or_concat l with rfl | ⟨l, v, rfl⟩
        · exact absurd rfl hne
        · rw [List.concat_eq_append] at *
          obtain ⟨t, ht, h1, h2, h3, h4⟩ := h.live i _ hi
          have hv : valuesOf (s.arr i) = t.values := by rw [ht]; rfl
          simp only [List.length_append, List.length_singleton] at h1 h2 h4
          rcases h4 with ⟨h4, h5⟩ | ⟨h4, h5⟩
          · omega
          · have hs := small hk h3
            have hw : wrap W (t.size + 2 ^ W - 1) = l.length := by
              rw [wrap, h1, show l.length + 1 + 2 ^ W - 1 = l.length + 2 ^ W by omega, Nat.add_mod_right, Nat.mod_eq_of_lt (by omega)]
            have hd := destroy_at s.mem t.values (l.map some) (List.replicate (t.capacity - (l.length + 1)) none) v l.length (by simp)
              (by rw [h5]; simp)
            refine ⟨⟨Function.update s.mem t.values (some (l.map some ++ none :: List.replicate (t.capacity - (l.length + 1)) none)),
              Function.update s.arr i (some ⟨l.length, t.capacity, t.values⟩)⟩,
              by simp only [call, removeBack, ht, Option.bind_some, hw, hd, Option.map_some], ?_⟩
            rw [List.dropLast_concat]
            apply inv_write h
            · simp
            · intro l' e; cases e
              refine ⟨_, rfl, rfl, by simp only; omega, h3, Or.inr ⟨h4, ?_⟩⟩
              simp only
              rw [Function.update_self, ← List.replicate_succ]
              congr 3; omega
            · rw [Function.update_of_ne (Ne.symm h4)]; exact mem_zero h
            · intro b hb _; rw [hv] at hb; rw [Function.update_of_ne hb]
            · intro e; exact absurd hv e
            · intro _; exact Or.inl hv.symm
  | setAt i x v =>
    simp only [opOf, Spec.Arrays.apply] at hop
    cases hi : σ i with
    | none => rw [hi] at hop; cases hop
    | some l =>
      rw [hi] at hop
      simp only at hop
      by_cases hx : x < l.length
      · rw [if_pos hx] at hop; cases hop
        obtain ⟨t, ht, h1, h2, h3, h4⟩ := h.live i _ hi
        have hv : valuesOf (s.arr i) = t.values := by rw [ht]; rfl
        rcases h4 with ⟨h4, h5⟩ | ⟨h4, h5⟩
        · omega
        · have hp : put t.values x v s.mem = some (Function.update s.mem t.values
              (some ((l.set x v).map some ++ List.replicate (t.capacity - l.length) none))) := by
            simp only [put, h5, Option.bind_some]
            rw [List.getElem?_append_left (by simpa using hx), List.getElem?_map, List.getElem?_eq_getElem hx]
            simp only [Option.map_some]
            rw [List.set_append_left _ _ (by simpa using hx), List.map_set]
          refine ⟨⟨Function.update s.mem t.values (some ((l.set x v).map some ++ List.replicate (t.capacity - l.length) none)), s.arr⟩,
            by simp only [call, setAt, ht, Option.bind_some, hp, Option.map_some], ?_⟩
          rw [show s.arr = Function.update s.arr i (some t) by rw [← ht, Function.update_eq_self]]
          apply inv_write h
          · simp
          · intro l' e; cases e
            refine ⟨_, rfl, by simpa using h1, by simpa using h2, h3, Or.inr ⟨h4, ?_⟩⟩
            simp
          · rw [Function.update_of_ne (Ne.symm h4)]; exact mem_zero h
          · intro b hb _; rw [hv] at hb; rw [Function.update_of_ne hb]
          · intro e; exact absurd hv e
          · intro _; exact Or.inl hv.symm
      · rw [if_neg hx] at hop; cases hop

/-! ### the claims -/

/-- states reached by calls that are allowed on the sequences, ask for no more memory than can be counted and get fresh memory -/
inductive Reach (W k : Nat) : State T → Store T → Prop
  | init : Reach W k ⟨fun _ => none, fun _ => none⟩ (fun _ => none)
  | step (s s' : State T) (σ σ' : Store T) (c : Call T) : Reach W k s σ → apply σ (opOf c) = some σ' → Fits W k σ c → Fresh s c →
      call W k s c = some s' → Reach W k s' σ'

theorem reach_inv {W k : Nat} (hk : 0 < k) (hW : k < 2 ^ W) {s : State T} {σ : Store T} (h : Reach W k s σ) : Inv W k s σ := by
  induction h with
  | init =>
    constructor
    · intro _ _; rfl
    · intro _ _ h; exact absurd h (by simp)
    · intro _ _ _ _ h; exact absurd h (by simp)
    · intro _ h; exact absurd rfl h
  | step s s' σ σ' c _ hop hfit hfr hc ih =>
    obtain ⟨s'', h1, h2⟩ := step_ok hk hW ih c hop hfit hfr
    rw [hc] at h1; cases h1
    exact h2

/-- C08 (all calls except self-assignment and the appending of an element of the array itself): every allowed call on every reachable
state runs without undefined behaviour, without leaking or destroying an object twice, to a state that again follows the sequences -/
theorem C08_runs_partial {W k : Nat} (hk : 0 < k) (hW : k < 2 ^ W) {s : State T} {σ σ' : Store T} (h : Reach W k s σ) (c : Call T)
    (hop : apply σ (opOf c) = some σ') (hfit : Fits W k σ c) (hfr : Fresh s c) : ∃ s', call W k s c = some s' ∧ Reach W k s' σ' := by
  obtain ⟨s', h1, -⟩ := step_ok hk hW (reach_inv hk hW h) c hop hfit hfr
  exact ⟨s', h1, .step s s' σ σ' c h hop hfit hfr h1⟩

theorem at_ok {W k : Nat} {s : State T} {σ : Store T} (h : Inv W k s σ) (i : Nat) (l : List T) (hl : σ i = some l) (x : Nat) (hx : x < l.length) :
    at' s i x = some l[x] := by
  obtain ⟨t, ht, h1, h2, h3, h4⟩ := h.live i l hl
  rcases h4 with ⟨h4, h5⟩ | ⟨h4, h5⟩
  · omega
  · simp only [at', ht, Option.bind_some]
    refine get_at s.mem t.values ((l.take x).map some) ((l.drop (x + 1)).map some ++ List.replicate (t.capacity - l.length) none) (some l[x]) x
      (by simp; omega) ?_
    rw [h5, ← List.cons_append, ← split_map l x hx, ← List.append_assoc, ← List.map_append, List.take_append_drop]

/-- C08: in every reachable state an array exists exactly when its sequence does, reports its length, its capacity is at least its
length, and every element reads back as the element of the sequence -/
theorem C08_contents_partial {W k : Nat} (hk : 0 < k) (hW : k < 2 ^ W) {s : State T} {σ : Store T} (h : Reach W k s σ) (i : Nat) :
    (σ i = none → s.arr i = none) ∧
    ∀ l, σ i = some l → ∃ t, s.arr i = some t ∧ t.size = l.length ∧ t.size ≤ t.capacity ∧ ∀ x, (hx : x < l.length) → at' s i x = some l[x] := by
  have hI := reach_inv hk hW h
  refine ⟨hI.dead i, fun l hl => ?_⟩
  obtain ⟨t, ht, h1, h2, -, -⟩ := hI.live i l hl
  exact ⟨t, ht, h1, by omega, fun x hx => at_ok hI i l hl x hx⟩

/-- C08: nothing leaks; when all arrays are gone, no memory is allocated -/
theorem C08_no_leak_partial {W k : Nat} (hk : 0 < k) (hW : k < 2 ^ W) {s : State T} {σ : Store T} (h : Reach W k s σ)
    (hgone : ∀ i, σ i = none) (b : Nat) : s.mem b = none := by
  have hI := reach_inv hk hW h
  by_contra hb
  obtain ⟨-, i, t, ht, -⟩ := hI.own b hb
  rw [hI.dead i (hgone i)] at ht
  cases ht

/-- C08: `find` returns the position of the first equal element, and the length if there is none -/
theorem C08_find_partial [DecidableEq T] {W k : Nat} (hk : 0 < k) (hW : k < 2 ^ W) {s : State T} {σ : Store T} (h : Reach W k s σ)
    (i : Nat) (l : List T) (hl : σ i = some l) (v : T) (fuel : Nat) (hf : l.length < fuel) : find s i v fuel 0 = some (l.idxOf v) := by
  have hI := reach_inv hk hW h
  obtain ⟨t, ht, h1, -⟩ := hI.live i l hl
  suffices H : ∀ (d x fuel : Nat), x + d = l.length → d < fuel → find s i v fuel x = some (x + (l.drop x).idxOf v) by
    have := H l.length 0 fuel (by omega) hf
    simpa using this
  intro d
  induction d with
  | zero =>
    intro x fuel hx hf
    obtain ⟨n, rfl⟩ : ∃ n, fuel = n + 1 := ⟨fuel - 1, by omega⟩
    simp only [Nat.add_zero] at hx
    subst hx
    simp [find, ht, h1]
  | succ d ih =>
    intro x fuel hx hf
    obtain ⟨n, rfl⟩ : ∃ n, fuel = n + 1 := ⟨fuel - 1, by omega⟩
    have hxl : x < l.length := by omega
    simp only [find, ht, Option.bind_some, h1, if_neg (show ¬ x = l.length by omega), at_ok hI i l hl x hxl]
    rw [List.drop_eq_getElem_cons hxl]
    by_cases e : l[x] = v
    · rw [if_pos e, e]; simp
    · rw [if_neg e, ih (x + 1) n (by omega) (by omega), List.idxOf_cons, show (l[x] == v) = false by simpa using e, cond_false]
      congr 1; omega

/-- C08: `reserve(n)` leaves room for at least `n` more elements -/
theorem C08_reserve_partial {W k : Nat} (hk : 0 < k) (hW : k < 2 ^ W) {s : State T} {σ : Store T} (h : Reach W k s σ) (i n a : Nat)
    (l : List T) (hl : σ i = some l) (hfit : (l.length + n) * k < 2 ^ W) (ha : a ≠ 0) (hfr : s.mem a = none) :
    ∃ s' t, call W k s (.reserve i n a) = some s' ∧ s'.arr i = some t ∧ l.length + n ≤ t.capacity := by
  have hI := reach_inv hk hW h
  obtain ⟨t, ht, h1, h2, h3, h4⟩ := hI.live i l hl
  by_cases hc : n ≤ t.capacity - t.size
  · exact ⟨s, t, by simp [call, reserve, ht, hc], ht, by omega⟩
  · have hw : wrap W (t.size + n) = l.length + n := by rw [h1, wrap, Nat.mod_eq_of_lt (small hk hfit)]
    obtain ⟨s', hs', -, ht'⟩ := relocate_ok hI hk i (wrap W (t.size + n)) a l hl (by rw [hw]; exact hfit) (by rw [hw]; omega) ha hfr
    exact ⟨s', _, by simp [call, reserve, ht, hc, hs'], ht', by simp only; omega⟩

/-- C08 is false: appending an element of the array to the array itself reads the element after its buffer was released, in every
reachable state in which the array is full -/
theorem C08_append_own_element_counterexample {W k : Nat} (hk : 0 < k) (hW : k < 2 ^ W) {s : State T} {σ : Store T} (h : Reach W k s σ)
    (i x a : Nat) (l : List T) (t : Arr) (hl : σ i = some l) (ht : s.arr i = some t) (hfull : t.capacity = t.size) (hx : x < l.length) :
    append W k i (.cell t.values x) a s = none := by
  have hI := reach_inv hk hW h
  obtain ⟨t', ht', h1, h2, h3, h4⟩ := hI.live i l hl
  rw [ht] at ht'; cases ht'
  simp only [append, ht, Option.bind_some, if_pos hfull]
  rcases h4 with ⟨h4, h5⟩ | ⟨h4, h5⟩
  · omega
  cases hr : relocate W k i (grown W t.size) a s with
  | none => rfl
  | some s' =>
    simp only [Option.bind_some, pushBack]
    have hgone : s'.mem t.values = none := by
      simp only [relocate, ht, Option.bind_some] at hr
      cases hloop : loop t.size (fun x m => (peek m t.values x).bind fun v => (construct a x v m).bind (destroy t.values x))
          (alloc W k a (grown W t.size) s.mem) with
      | none => rw [hloop] at hr; cases hr
      | some m =>
        rw [hloop] at hr
        simp only [Option.bind_some, dealloc, if_neg h4] at hr
        cases hm : m t.values with
        | none => rw [hm] at hr; cases hr
        | some cells =>
          rw [hm] at hr
          simp only [Option.bind_some] at hr
          split at hr
          · cases hr; simp
          · cases hr
    cases s'.arr i with
    | none => rfl
    | some u => simp [Ref.read, peek, hgone]

/-- ... while it works in every reachable state with room left -/
theorem C08_append_own_element_room_partial {W k : Nat} (hk : 0 < k) (hW : k < 2 ^ W) {s : State T} {σ : Store T} (h : Reach W k s σ)
    (i x a : Nat) (l : List T) (t : Arr) (hl : σ i = some l) (ht : s.arr i = some t) (hroom : t.size < t.capacity) (hx : x < l.length) :
    ∃ s', append W k i (.cell t.values x) a s = some s' ∧ Inv W k s' (write σ i (some (l ++ [l[x]]))) := by
  have hI := reach_inv hk hW h
  obtain ⟨t', ht', h1, h2, h3, h4⟩ := hI.live i l hl
  rw [ht] at ht'; cases ht'
  have hr : (Ref.cell t.values x : Ref T).read s.mem = some l[x] := by
    have := at_ok hI i l hl x hx
    simpa [at', ht, Ref.read] using this
  obtain ⟨s', hs', hI'⟩ := pushBack_ok hI hk i l hl (.cell t.values x) l[x] hr (by intro u hu; rw [ht] at hu; cases hu; omega)
  exact ⟨s', by simp only [append, ht, Option.bind_some, if_neg (show ¬ t.capacity = t.size by omega)]; exact hs', hI'⟩

/-- C08 is false: assigning an array to itself destroys its elements and then copies from raw memory, for every non-empty array -/
theorem C08_self_assignment_counterexample {W k : Nat} (hk : 0 < k) (hW : k < 2 ^ W) {s : State T} {σ : Store T} (h : Reach W k s σ)
    (i a : Nat) (l : List T) (hl : σ i = some l) (hne : l ≠ []) : assign W k i i a s = none := by
  have hI := reach_inv hk hW h
  obtain ⟨t, m, m', ht, hm, hd, hz, ho⟩ := release hI i l hl
  obtain ⟨t', ht', h1, -⟩ := hI.live i l hl
  rw [ht] at ht'; cases ht'
  have hlen : t.size ≠ 0 := by rw [h1]; exact fun e => hne (List.length_eq_zero_iff.1 e)
  obtain ⟨n, hn⟩ : ∃ n, t.size = n + 1 := ⟨t.size - 1, by omega⟩
  have hfirst : ∀ (n : Nat) (m : Mem T) (c : Nat), m a = some (List.replicate c none) →
      loop (n + 1) (fun x m => (peek m a x).bind fun v => construct a x v m) m = none := by
    intro n m c hc
    induction n with
    | zero =>
      rw [loop_succ]
      have : peek m a 0 = none := by
        simp only [peek, hc, Option.bind_some]
        cases c <;> simp
      simp [loop, this]
    | succ n ih => rw [loop_succ, ih]; rfl
  simp only [assign, ht, Option.bind_some, hm, hd, Function.update_self]
  rw [hn, hfirst n _ (wrap W (t.capacity * k) / k) (by simp [alloc])]
  rfl

/-- C08 is false: `reserve(SIZE_MAX)` on an array with two elements shrinks its buffer to one element and writes behind it
(32 bit `std::size_t`, elements of 4 bytes) -/
theorem C08_reserve_overflow_counterexample :
    ((createList 32 4 0 [1, 2] 100 (⟨fun _ => none, fun _ => none⟩ : State Nat)).bind (reserve 32 4 0 (2 ^ 32 - 1) 200)).isNone = true := by
  decide

/-- a run with two arrays, growth, copying, assignment into the own old buffer and destruction -/
def demo : List (Call Nat) :=
  [.createList 0 [1, 2] 10, .append 0 3 11, .create 1, .append 1 9 10, .assign 1 0 10, .removeBack 0, .append 1 4 12, .setAt 1 0 7, .clear 0]

example : ((demo.foldlM (fun s c => call 32 4 s c) (⟨fun _ => none, fun _ => none⟩ : State Nat)).map
    fun s => ((List.range 4).map (at' s 1), (s.arr 0).map (·.size))) = some ([some 7, some 2, some 3, some 4], some 0) := by decide

example : (demo.foldlM (fun s c => apply s (opOf c)) (fun _ => none)).map (fun σ => (σ 0, σ 1)) = some (some [], some [7, 2, 3, 4]) := by decide

end Props.DynamicArray
