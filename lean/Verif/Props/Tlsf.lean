import Verif.Lemmas.TlsfInv
import Verif.Spec.Tlsf

set_option autoImplicit false

/-!
# Theorems about the TLSF allocator (C279–C281)
-/

namespace Props.Tlsf

open Model.Tlsf Spec.Tlsf Lemmas.Tlsf Lemmas.TlsfInv

/-- Words that the allocator adds to an allocation: its header, and the rounding. -/
def cost (a : Alloc) : Nat := max (words a.size) 3 + 4

/-- What holds in all reachable states. -/
structure WInv (c : Cfg) (raw : Nat → Nat) (b n : Nat) (w : World) (fc : List (Nat × Bool)) (bins : Nat → Nat → List Nat) : Prop where
  inv : Inv c w.heap b fc bins (fun _ => False)
  merged : Merged false fc
  len : len fc = n
  block : ∀ a ∈ w.live, ∃ x k, a.ptr = x + 2 ∧ (x, k, false) ∈ blocks b fc ∧ k ≠ 0 ∧ words a.size ≤ k ∧ k + 1 ≤ cost a
  alloc : ∀ x k, (x, k, false) ∈ blocks b fc → k ≠ 0 → ∃ a ∈ w.live, a.ptr = x + 2
  nodup : (w.live.map Alloc.ptr).Nodup
  data : ∀ a ∈ w.live, ∀ k, k < words a.size → w.heap.mem (a.ptr + k) = a.data k
  outside : ∀ i, (b + n < i ∨ (i ≤ b ∧ i ≠ 2 ∧ i ≠ 3)) → w.heap.mem i = raw i

theorem get_some (w : World) (ptr : Nat) (a : Alloc) (h : w.get ptr = some a) : a ∈ w.live ∧ a.ptr = ptr := by
  unfold World.get at h
  have h1 := List.mem_of_find?_eq_some h
  have h2 := List.find?_some h
  exact ⟨h1, by simpa using h2⟩

theorem ptr_unique (l : List Alloc) (hn : (l.map Alloc.ptr).Nodup) (a b : Alloc) (ha : a ∈ l) (hb : b ∈ l) (e : a.ptr = b.ptr) : a = b := by
  induction l with
  | nil => simp at ha
  | cons x l ih =>
    rw [List.map_cons, List.nodup_cons] at hn
    rcases List.mem_cons.mp ha with rfl | ha'
    · rcases List.mem_cons.mp hb with rfl | hb'
      · rfl
      · exact absurd (e ▸ List.mem_map_of_mem hb') hn.1
    · rcases List.mem_cons.mp hb with rfl | hb'
      · exact absurd (e ▸ List.mem_map_of_mem ha') hn.1
      · exact ih hn.2 ha' hb'

theorem adjust_eq (c : Cfg) (size : Nat) (h0 : 0 < size) (h1 : size < 2 ^ c.flMax) :
    adjust c size = 4 * max (words size) 3 ∧ size ≤ 4 * max (words size) 3 := by
  unfold adjust words
  rw [if_pos ⟨by omega, h1⟩]
  omega

variable {c : Cfg} {raw : Nat → Nat} {b n : Nat} {w : World} {fc : List (Nat × Bool)} {bins : Nat → Nat → List Nat}

theorem data_keep (W : WInv c raw b n w fc bins) (a : Alloc) (ha : a ∈ w.live) (k : Nat) (hk : k < words a.size) :
    ∃ x q, a.ptr = x + 2 ∧ (x, q, false) ∈ blocks b fc ∧ q ≠ 0 ∧ x + 2 ≤ a.ptr + k ∧ a.ptr + k < x + 2 + q := by
  obtain ⟨x, q, h1, h2, h3, h4, -⟩ := W.block a ha
  exact ⟨x, q, h1, h2, h3, by omega, by omega⟩

theorem malloc_world (S : Settings c) (W : WInv c raw b n w fc bins) (size : Nat) (hA : Allowed c w (.malloc size)) :
    ∃ w' fc' bins', step c w (.malloc size) = some w' ∧ WInv c raw b n w' fc' bins' := by
  by_cases h0 : 0 < size ∧ size < 2 ^ c.flMax
  · obtain ⟨e1, e2⟩ := adjust_eq c size h0.1 h0.2
    have hA : (mappingSearch c (adjust c size)).1 < c.flCount := hA
    rw [e1] at hA
    rcases malloc_step S W.inv W.merged size _ e1 (le_max_right _ _) hA with ⟨e, -⟩ | ⟨h', fc', bins', x, k, e, I, M, l1, l2, U, N, E⟩
    · refine ⟨w, fc, bins, ?_, W⟩
      simp only [step, e]
    · refine ⟨⟨h', ⟨x + 2, size, fun k => h'.mem (x + 2 + k)⟩ :: w.live⟩, fc', bins', by simp only [step, e], ⟨I, M, by rw [E.len, W.len], ?_, ?_, ?_, ?_, ?_⟩⟩
      · intro a ha
        rcases List.mem_cons.mp ha with rfl | ha
        · exact ⟨x, k, rfl, (U x k).mpr (.inr ⟨rfl, rfl⟩), by omega, by simp only; omega, by unfold cost; simp only; omega⟩
        · obtain ⟨y, q, h1, h2, h3⟩ := W.block a ha
          exact ⟨y, q, h1, (U y q).mpr (.inl h2), h3⟩
      · intro y q hy hq
        rcases (U y q).mp hy with hy | ⟨rfl, rfl⟩
        · obtain ⟨a, h1, h2⟩ := W.alloc y q hy hq
          exact ⟨a, List.mem_cons_of_mem _ h1, h2⟩
        · exact ⟨_, List.mem_cons_self, rfl⟩
      · rw [List.map_cons, List.nodup_cons]
        refine ⟨fun hh => ?_, W.nodup⟩
        obtain ⟨a, h1, h2⟩ := List.mem_map.mp hh
        obtain ⟨y, q, h3, h4, -⟩ := W.block a h1
        have := N y q h4
        simp only at h2
        omega
      · intro a ha q hq
        rcases List.mem_cons.mp ha with rfl | ha
        · rfl
        · obtain ⟨y, p, h1, h2, h3, h4, h5⟩ := data_keep W a ha q hq
          rw [← W.data a ha q hq]
          exact E.keep _ (.inl ⟨y, p, h2, h4, h5⟩) (.inl ⟨y, p, (U y p).mpr (.inl h2), h4, h5⟩)
      · intro i hi
        rw [← W.outside i hi]
        have hl := E.len
        have hl2 := W.len
        exact E.keep i (.inr (hi.imp (fun hh => by omega) id)) (.inr (hi.imp (fun hh => by omega) id))
  · refine ⟨w, fc, bins, ?_, W⟩
    have : adjust c size = 0 := by
      unfold adjust
      rw [if_neg]
      omega
    unfold step malloc
    simp only [this, if_true]

theorem free_world (S : Settings c) (W : WInv c raw b n w fc bins) (ptr : Nat) (hA : Allowed c w (.free ptr)) :
    ∃ w' fc' bins', step c w (.free ptr) = some w' ∧ WInv c raw b n w' fc' bins' := by
  obtain ⟨a, hga⟩ := Option.isSome_iff_exists.mp hA
  obtain ⟨ha, rfl⟩ := get_some w ptr a hga
  obtain ⟨x, k, h1, h2, h3, -⟩ := W.block a ha
  obtain ⟨l, t, e, hx⟩ := blocks_mem _ _ _ _ _ h2
  obtain ⟨-, n2, f2, r, rfl⟩ := good_used l t k false h3 (e ▸ W.inv.good)
  obtain ⟨h', fc', bins', ef, I, M, U, L, K⟩ := free_step S l r k n2 f2 x hx (e ▸ W.inv) (e ▸ W.merged)
  rw [← e] at U L
  have hdrop : ∀ a', a' ∈ w.drop a.ptr ↔ a' ∈ w.live ∧ a'.ptr ≠ a.ptr := by
    intro a'
    unfold World.drop
    simp
  refine ⟨⟨h', w.drop a.ptr⟩, fc', bins', ?_, ⟨I, M, by rw [L, W.len], ?_, ?_, ?_, ?_, ?_⟩⟩
  · have ef' : free c w.heap a.ptr = some h' := by rw [h1]; exact ef
    show (free c w.heap a.ptr).map _ = _
    rw [ef']
    rfl
  · intro a' ha'
    obtain ⟨m1, m2⟩ := (hdrop a').mp ha'
    obtain ⟨y, q, g1, g2, g3⟩ := W.block a' m1
    exact ⟨y, q, g1, (U y q).mpr ⟨g2, by omega⟩, g3⟩
  · intro y q hy hq
    obtain ⟨m1, m2⟩ := (U y q).mp hy
    obtain ⟨a', g1, g2⟩ := W.alloc y q m1 hq
    exact ⟨a', (hdrop a').mpr ⟨g1, by omega⟩, g2⟩
  · exact ((List.filter_sublist (l := w.live)).map _).nodup W.nodup
  · intro a' ha' q hq
    obtain ⟨m1, m2⟩ := (hdrop a').mp ha'
    obtain ⟨y, p, g1, g2, g3, g4, g5⟩ := data_keep W a' m1 q hq
    rw [← W.data a' m1 q hq]
    exact K _ (.inl ⟨y, p, (U y p).mpr ⟨g2, by omega⟩, g4, g5⟩)
  · intro i hi
    rw [← W.outside i hi]
    have hl2 := W.len
    exact K i (.inr (hi.imp (fun hh => by omega) id))

theorem realloc_world (S : Settings c) (W : WInv c raw b n w fc bins) (ptr size : Nat) (hA : Allowed c w (.realloc ptr size)) :
    ∃ w' fc' bins', step c w (.realloc ptr size) = some w' ∧ WInv c raw b n w' fc' bins' := by
  obtain ⟨hA1, h0, h1, hA2⟩ := hA
  obtain ⟨a, hga⟩ := Option.isSome_iff_exists.mp hA1
  obtain ⟨ha, rfl⟩ := get_some w ptr a hga
  obtain ⟨x, k, hp, h2, h3, h4, -⟩ := W.block a ha
  obtain ⟨e1, e2⟩ := adjust_eq c size h0 h1
  rw [e1] at hA2
  rcases realloc_step S W.inv W.merged x k h2 h3 size _ e1 (le_max_right _ _) e2 hA2 with e | ⟨h', fc', bins', q, n', e, I, M, l1, l2, U, N, L, K, D⟩
  · refine ⟨w, fc, bins, ?_, W⟩
    unfold step
    simp only [hga]
    rw [hp, e]
  have hdrop : ∀ a', a' ∈ w.drop a.ptr ↔ a' ∈ w.live ∧ a'.ptr ≠ a.ptr := by
    intro a'
    unfold World.drop
    simp
  refine ⟨⟨h', ⟨q + 2, size, fun k => if k < words a.size then a.data k else h'.mem (q + 2 + k)⟩ :: w.drop a.ptr⟩, fc', bins', ?_,
    ⟨I, M, by rw [L, W.len], ?_, ?_, ?_, ?_, ?_⟩⟩
  · unfold step
    simp only [hga]
    rw [hp, e]
  · intro a' ha'
    rcases List.mem_cons.mp ha' with rfl | ha'
    · exact ⟨q, n', rfl, (U q n').mpr (.inr ⟨rfl, rfl⟩), by omega, by simp only; omega, by unfold cost; simp only; omega⟩
    · obtain ⟨m1, m2⟩ := (hdrop a').mp ha'
      obtain ⟨y, p, g1, g2, g3⟩ := W.block a' m1
      exact ⟨y, p, g1, (U y p).mpr (.inl ⟨g2, by omega⟩), g3⟩
  · intro y p hy hq
    rcases (U y p).mp hy with ⟨m1, m2⟩ | ⟨rfl, rfl⟩
    · obtain ⟨a', g1, g2⟩ := W.alloc y p m1 hq
      exact ⟨a', List.mem_cons_of_mem _ ((hdrop a').mpr ⟨g1, by omega⟩), g2⟩
    · exact ⟨_, List.mem_cons_self, rfl⟩
  · rw [List.map_cons, List.nodup_cons]
    refine ⟨fun hh => ?_, ((List.filter_sublist (l := w.live)).map _).nodup W.nodup⟩
    obtain ⟨a', g1, g2⟩ := List.mem_map.mp hh
    obtain ⟨m1, m2⟩ := (hdrop a').mp g1
    obtain ⟨y, p, g3, g4, -⟩ := W.block a' m1
    have := N y p g4 (by omega)
    simp only at g2
    omega
  · intro a' ha' i hi
    rcases List.mem_cons.mp ha' with rfl | ha'
    · simp only
      by_cases hk : i < words a.size
      · rw [if_pos hk, ← W.data a ha i hk, hp]
        refine D i (by omega) ?_
        unfold words at hi
        simp only at hi
        omega
      · rw [if_neg hk]
    · obtain ⟨m1, m2⟩ := (hdrop a').mp ha'
      obtain ⟨y, p, g1, g2, g3, g4, g5⟩ := data_keep W a' m1 i hi
      rw [← W.data a' m1 i hi]
      exact K _ (.inl ⟨y, p, g2, by omega, g4, g5⟩)
  · intro i hi
    rw [← W.outside i hi]
    have hl2 := W.len
    exact K i (.inr (hi.imp (fun hh => by omega) id))

theorem write_world (W : WInv c raw b n w fc bins) (ptr k v : Nat) (hA : Allowed c w (.write ptr k v)) :
    ∃ w' fc' bins', step c w (.write ptr k v) = some w' ∧ WInv c raw b n w' fc' bins' := by
  obtain ⟨a, hga, hk⟩ := hA
  obtain ⟨ha, rfl⟩ := get_some w ptr a hga
  obtain ⟨x, q, h1, h2, h3, h4, h5⟩ := data_keep W a ha k hk
  have I := payload_inv W.inv (Function.update w.heap.mem (a.ptr + k) v) (fun i => by
    by_cases hi : i = a.ptr + k
    · exact .inr ⟨x, q, h2, by omega, by omega⟩
    · exact .inl (Function.update_of_ne hi _ _))
  have hmap : ∀ a', a' ∈ (w.live.map fun a'' => if a''.ptr = a.ptr then (⟨a''.ptr, a''.size, Function.update a''.data k v⟩ : Alloc) else a'') →
      ∃ a'' ∈ w.live, a'.ptr = a''.ptr ∧ a'.size = a''.size ∧ a'.data = if a''.ptr = a.ptr then Function.update a''.data k v else a''.data := by
    intro a' ha'
    obtain ⟨a'', m1, rfl⟩ := List.mem_map.mp ha'
    refine ⟨a'', m1, ?_⟩
    by_cases hh : a''.ptr = a.ptr
    · simp [hh]
    · simp [hh]
  refine ⟨_, fc, bins, rfl, ⟨I, W.merged, W.len, ?_, ?_, ?_, ?_, ?_⟩⟩
  · intro a' ha'
    obtain ⟨a'', m1, m2, m3, -⟩ := hmap a' ha'
    obtain ⟨y, p, g1, g2, g3, g4, g5⟩ := W.block a'' m1
    exact ⟨y, p, by rw [m2]; exact g1, g2, g3, by rw [m3]; exact g4, by unfold cost at g5 ⊢; rw [m3]; exact g5⟩
  · intro y p hy hq
    obtain ⟨a', g1, g2⟩ := W.alloc y p hy hq
    refine ⟨_, List.mem_map_of_mem g1, ?_⟩
    by_cases hh : a'.ptr = a.ptr
    · rw [if_pos hh]; exact g2
    · rw [if_neg hh]; exact g2
  · have : (w.live.map fun a'' => if a''.ptr = a.ptr then (⟨a''.ptr, a''.size, Function.update a''.data k v⟩ : Alloc) else a'').map Alloc.ptr = w.live.map Alloc.ptr := by
      rw [List.map_map]
      apply List.map_congr_left
      intro a'' _
      by_cases hh : a''.ptr = a.ptr
      · simp [hh]
      · simp [hh]
    rw [this]
    exact W.nodup
  · intro a' ha' i hi
    obtain ⟨a'', m1, m2, m3, m4⟩ := hmap a' ha'
    rw [m3] at hi
    unfold Heap.put
    simp only
    rw [m2, m4]
    by_cases hh : a''.ptr = a.ptr
    · rw [if_pos hh]
      by_cases hik : i = k
      · subst hik
        rw [hh, Function.update_self, Function.update_self]
      · rw [Function.update_of_ne (by omega), Function.update_of_ne hik]
        exact W.data a'' m1 i hi
    · rw [if_neg hh]
      have hne : a''.ptr + i ≠ a.ptr + k := by
        obtain ⟨y, p, g1, g2, g3, g4, g5⟩ := data_keep W a'' m1 i hi
        obtain ⟨l1, l2, e, hx⟩ := blocks_mem _ _ _ _ _ h2
        rw [e] at g2
        have := around _ _ _ _ _ _ _ _ g2 (by omega)
        omega
      rw [Function.update_of_ne hne]
      exact W.data a'' m1 i hi
  · intro i hi
    unfold Heap.put
    simp only
    have hbd := blocks_bound _ _ _ _ _ h2
    have hl := W.len
    rw [Function.update_of_ne (by omega)]
    exact W.outside i hi

theorem step_world (S : Settings c) (W : WInv c raw b n w fc bins) (o : Op) (hA : Allowed c w o) :
    ∃ w' fc' bins', step c w o = some w' ∧ WInv c raw b n w' fc' bins' := by
  cases o with
  | malloc size => exact malloc_world S W size hA
  | free ptr => exact free_world S W ptr hA
  | realloc ptr size => exact realloc_world S W ptr size hA
  | write ptr k v => exact write_world W ptr k v hA

/-- A pool that fits: behind the control structure, and smaller than the largest block. -/
structure Pool (c : Cfg) (pool n : Nat) : Prop where
  base : 5 ≤ pool
  min : 5 ≤ n
  max : 4 * (n - 2) < 2 ^ c.flMax

theorem reach_inv (c : Cfg) (S : Settings c) (raw : Nat → Nat) (pool n : Nat) (P : Pool c pool n) (w : World) (R : Reach c raw pool n w) :
    ∃ fc bins, WInv c raw (pool - 1) n w fc bins := by
  induction R with
  | start h hc =>
    obtain ⟨h', bins, e, I, O⟩ := create_step c S raw (pool - 1) (n - 2) (by have := P.base; omega) (by have := P.min; omega) P.max
    have hp := P.base
    have hm := P.min
    rw [show pool - 1 + 1 = pool by omega, show n - 2 + 2 = n by omega, hc] at e
    cases e
    refine ⟨_, bins, ⟨I, by simp [Merged], by simp only [Lemmas.TlsfInv.len]; omega, fun a ha => by simp at ha, ?_, by simp, fun a ha => by simp at ha, ?_⟩⟩
    · intro x k hx hk
      simp [blocks] at hx
      omega
    · intro i hi
      exact O i (hi.imp (fun hh => by omega) id)
  | step w w' o _ hA hs ih =>
    obtain ⟨fc, bins, W⟩ := ih
    obtain ⟨w'', fc', bins', e, W'⟩ := step_world S W o hA
    rw [hs] at e
    cases e
    exact ⟨fc', bins', W'⟩

theorem cost_sum (l : List Alloc) (U : List (Nat × Nat × Bool)) (s : Nat) (hn : (l.map Alloc.ptr).Nodup)
    (hperm : (U.map fun t => t.1 + 2).Perm ((s + 2) :: l.map Alloc.ptr))
    (hs : ∀ t ∈ U, (t.1 = s ∧ t.2.1 = 0) ∨ ∃ a ∈ l, a.ptr = t.1 + 2 ∧ t.2.1 + 1 ≤ cost a) (hsl : ∀ a ∈ l, a.ptr ≠ s + 2) :
    total U ≤ 1 + (l.map cost).sum := by
  obtain ⟨g, hg⟩ : ∃ g : Nat → Nat, g = fun p => if p = s + 2 then 1 else ((l.find? fun a => a.ptr == p).map cost).getD 0 := ⟨_, rfl⟩
  have hga : ∀ a ∈ l, g a.ptr = cost a := by
    intro a ha
    rw [hg]
    simp only
    rw [if_neg (hsl a ha)]
    have : (l.find? fun a' => a'.ptr == a.ptr) = some a := by
      cases hf : l.find? fun a' => a'.ptr == a.ptr with
      | none =>
        have := List.find?_eq_none.mp hf a ha
        simp at this
      | some a' =>
        have h1 := List.mem_of_find?_eq_some hf
        have h2 := List.find?_some hf
        rw [ptr_unique l hn a' a h1 ha (by simpa using h2)]
    rw [this]
    rfl
  have h1 : total U ≤ ((U.map fun t => t.1 + 2).map g).sum := by
    have : ∀ U : List (Nat × Nat × Bool), (∀ t ∈ U, 1 + t.2.1 ≤ g (t.1 + 2)) → total U ≤ ((U.map fun t => t.1 + 2).map g).sum := by
      intro U
      induction U with
      | nil => intro _; simp [total]
      | cons t U ih =>
        intro ht
        have h1 := ih (fun t h => ht t (by simp [h]))
        have h2 := ht t (by simp)
        unfold total at h1 ⊢
        simp only [List.map_cons, List.sum_cons]
        omega
    refine this U (fun t ht => ?_)
    rcases hs t ht with ⟨h1, h2⟩ | ⟨a, h1, h2, h3⟩
    · rw [h1, h2, hg]
      simp
    · rw [← h2, hga a h1]
      omega
  have h2 : ((U.map fun t => t.1 + 2).map g).sum = (((s + 2) :: l.map Alloc.ptr).map g).sum := (hperm.map g).sum_nat
  have h3 : ((l.map Alloc.ptr).map g) = l.map cost := by
    rw [List.map_map]
    apply List.map_congr_left
    intro a ha
    exact hga a ha
  rw [List.map_cons, List.sum_cons, h3] at h2
  have h4 : g (s + 2) = 1 := by rw [hg]; simp
  omega

/-! ## C279 -/

section
variable (c : Cfg) (S : Settings c) (raw : Nat → Nat) (pool n : Nat) (P : Pool c pool n) (w : World) (R : Reach c raw pool n w)
include S P R

/-- C279: every allowed call is defined. -/
theorem C279_defined_partial (o : Op) (hA : Allowed c w o) : (step c w o).isSome := by
  obtain ⟨fc, bins, W⟩ := reach_inv c S raw pool n P w R
  obtain ⟨w', _, _, e, -⟩ := step_world S W o hA
  rw [e]
  rfl

/-- C279: memory that the program holds lies in the pool, and no two allocations overlap. -/
theorem C279_disjoint_partial :
    (∀ a ∈ w.live, pool < a.ptr ∧ a.ptr + words a.size < pool + n) ∧
      ∀ a ∈ w.live, ∀ a' ∈ w.live, a = a' ∨ a.ptr + words a.size < a'.ptr ∨ a'.ptr + words a'.size < a.ptr := by
  obtain ⟨fc, bins, W⟩ := reach_inv c S raw pool n P w R
  have hp := P.base
  have hl := W.len
  constructor
  · intro a ha
    obtain ⟨x, k, h1, h2, h3, h4, -⟩ := W.block a ha
    have hbd := blocks_bound _ _ _ _ _ h2
    obtain ⟨l, t, e, hx⟩ := blocks_mem _ _ _ _ _ h2
    obtain ⟨-, n2, f2, r, rfl⟩ := good_used l t k false h3 (e ▸ W.inv.good)
    have : n = len l + (1 + k + (1 + n2 + len r)) := by rw [← hl, e, len_append]; rfl
    omega
  · intro a ha a' ha'
    obtain ⟨x, k, h1, h2, h3, h4, -⟩ := W.block a ha
    obtain ⟨x', k', h1', h2', h3', h4', -⟩ := W.block a' ha'
    by_cases hx : x = x'
    · left
      exact ptr_unique w.live W.nodup a a' ha ha' (by omega)
    · right
      obtain ⟨l, t, e, hxl⟩ := blocks_mem _ _ _ _ _ h2
      rw [e] at h2'
      have := around _ _ _ _ _ _ _ _ h2' (by omega)
      omega

/-- C279: the memory keeps what the program has written. -/
theorem C279_data_partial (a : Alloc) (ha : a ∈ w.live) (k : Nat) (hk : k < words a.size) : w.heap.mem (a.ptr + k) = a.data k := by
  obtain ⟨fc, bins, W⟩ := reach_inv c S raw pool n P w R
  exact W.data a ha k hk

/-- C279: memory outside of the pool (and of the control structure, whose null block holds the
words 2 and 3) is not touched. -/
theorem C279_outside_partial (i : Nat) (hi : pool + n ≤ i ∨ (i < pool ∧ i ≠ 2 ∧ i ≠ 3)) : w.heap.mem i = raw i := by
  obtain ⟨fc, bins, W⟩ := reach_inv c S raw pool n P w R
  have hp := P.base
  exact W.outside i (by omega)

/-! ## C280 -/

/-- C280: `malloc` returns null only if the pool is filled by the allocations and by free blocks
that are too small, of which there is at most one more than there are allocations. The heap is then
unchanged. -/
theorem C280_null (size : Nat) (h0 : 0 < size) (h1 : size < 2 ^ c.flMax) (hA : Allowed c w (.malloc size)) (h' : Heap)
    (hm : malloc c w.heap size = some (h', none)) :
    h' = w.heap ∧ 4 * n ≤ 4 * (w.live.map cost).sum + (w.live.length + 1) * (roundUp c (adjust c size) + 3) + 4 := by
  obtain ⟨fc, bins, W⟩ := reach_inv c S raw pool n P w R
  have hp := P.base
  obtain ⟨e1, e2⟩ := adjust_eq c size h0 h1
  have hA : (mappingSearch c (adjust c size)).1 < c.flCount := hA
  rw [e1] at hA
  rcases malloc_step S W.inv W.merged size _ e1 (le_max_right _ _) hA with ⟨e, hnone⟩ | ⟨h'', fc', bins', x, k, e, -⟩
  swap
  · rw [hm] at e
    simp at e
  rw [hm] at e
  refine ⟨by simpa using e, ?_⟩
  rw [← e1] at hnone
  have hfree : ∀ t ∈ freeB (pool - 1) fc, 4 * t.2.1 < roundUp c (adjust c size) := by
    rintro ⟨x, k, f⟩ ht
    unfold freeB at ht
    rw [List.mem_filter] at ht
    obtain ⟨ht, hf⟩ := ht
    simp only at hf
    subst hf
    by_contra hge
    exact hnone x k ht (mapping_mono c (roundUp c (adjust c size)) (4 * k) (by simp only at hge; omega))
  have hused : ∀ t ∈ usedB (pool - 1) fc, (t.1 = pool - 1 + n - 1 ∧ t.2.1 = 0) ∨ ∃ a ∈ w.live, a.ptr = t.1 + 2 ∧ t.2.1 + 1 ≤ cost a := by
    rintro ⟨x, k, f⟩ ht
    unfold usedB at ht
    rw [List.mem_filter] at ht
    obtain ⟨ht, hf⟩ := ht
    simp only [Bool.not_eq_true'] at hf
    subst hf
    by_cases hk : k = 0
    · left
      subst hk
      obtain ⟨l, t, e, hx⟩ := blocks_mem _ _ _ _ _ ht
      cases t with
      | nil =>
        have hl := W.len
        rw [e, len_append] at hl
        simp only [Lemmas.TlsfInv.len] at hl
        exact ⟨by simp only; omega, rfl⟩
      | cons q r =>
        have hg := W.inv.good
        rw [e, good_append] at hg
        have := hg.2.1
        omega
    · right
      obtain ⟨a, g1, g2⟩ := W.alloc x k ht hk
      obtain ⟨y, q, g3, g4, -, -, g5⟩ := W.block a g1
      have : y = x := by omega
      subst this
      have := (block_size_unique _ _ _ _ _ ht g4).1
      exact ⟨a, g1, g2, by simp only; omega⟩
  have hsl : ∀ a ∈ w.live, a.ptr ≠ pool - 1 + n - 1 + 2 := by
    intro a ha
    obtain ⟨x, k, g1, g2, g3, -⟩ := W.block a ha
    have := blocks_bound _ _ _ _ _ g2
    have := W.len
    omega
  have hsent : (pool - 1 + n - 1, 0, false) ∈ usedB (pool - 1) fc := by
    have key : ∀ (fc : List (Nat × Bool)) (b : Nat), Good fc → (b + Lemmas.TlsfInv.len fc - 1, 0, false) ∈ blocks b fc := by
      intro fc
      induction fc with
      | nil => intro b hg; exact absurd hg (by simp [Good])
      | cons p fc ih =>
        obtain ⟨k, f⟩ := p
        intro b hg
        cases fc with
        | nil =>
          obtain ⟨rfl, rfl⟩ := hg
          simp [blocks, Lemmas.TlsfInv.len]
        | cons q r =>
          have := ih (b + 1 + k) hg.2
          rw [blocks, List.mem_cons]
          right
          rw [Lemmas.TlsfInv.len, show b + (1 + k + Lemmas.TlsfInv.len (q :: r)) - 1 = b + 1 + k + Lemmas.TlsfInv.len (q :: r) - 1 by omega]
          exact this
    have := key fc (pool - 1) W.inv.good
    rw [W.len] at this
    unfold usedB
    rw [List.mem_filter]
    exact ⟨this, rfl⟩
  have hperm : ((usedB (pool - 1) fc).map fun t => t.1 + 2).Perm ((pool - 1 + n - 1 + 2) :: w.live.map Alloc.ptr) := by
    refine (List.perm_ext_iff_of_nodup (usedB_nodup fc (pool - 1)) ?_).mpr ?_
    · rw [List.nodup_cons]
      refine ⟨fun hh => ?_, W.nodup⟩
      obtain ⟨a, g1, g2⟩ := List.mem_map.mp hh
      exact hsl a g1 g2
    · intro p
      rw [List.mem_map, List.mem_cons, List.mem_map]
      constructor
      · rintro ⟨t, ht, rfl⟩
        rcases hused t ht with ⟨g1, -⟩ | ⟨a, g1, g2, -⟩
        · exact .inl (by rw [g1])
        · exact .inr ⟨a, g1, g2⟩
      · rintro (rfl | ⟨a, ha, rfl⟩)
        · exact ⟨_, hsent, rfl⟩
        · obtain ⟨x, k, g1, g2, -⟩ := W.block a ha
          refine ⟨(x, k, false), ?_, g1.symm⟩
          unfold usedB
          rw [List.mem_filter]
          exact ⟨g2, rfl⟩
  have c1 := cost_sum w.live (usedB (pool - 1) fc) (pool - 1 + n - 1) W.nodup hperm hused hsl
  have c2 := total_le _ _ hfree
  have c3 := count_free fc (pool - 1) false W.inv.good W.merged
  have c4 := total_split fc (pool - 1)
  have c5 := hperm.length_eq
  rw [List.length_map, List.length_cons, List.length_map] at c5
  have c6 : (freeB (pool - 1) fc).length * (roundUp c (adjust c size) + 3) ≤ (w.live.length + 1) * (roundUp c (adjust c size) + 3) :=
    Nat.mul_le_mul_right _ (by simp at c3; omega)
  have := W.len
  omega

/-- C280: once everything is given back, the whole pool can be had again. -/
theorem C280_recovers (hl : w.live = []) (size : Nat) (h0 : 0 < size) (h1 : size < 2 ^ c.flMax) (hA : Allowed c w (.malloc size))
    (hfit : roundUp c (adjust c size) ≤ 4 * (n - 2)) : ∃ h' p, malloc c w.heap size = some (h', some p) := by
  have hd := C279_defined_partial c S raw pool n P w R (.malloc size) hA
  unfold step at hd
  cases hm : malloc c w.heap size with
  | none => simp only [hm] at hd; simp at hd
  | some q =>
    obtain ⟨h', r⟩ := q
    cases r with
    | some p => exact ⟨h', p, rfl⟩
    | none =>
      have := (C280_null c S raw pool n P w R size h0 h1 hA h' hm).2
      have hm := P.min
      rw [hl] at this
      simp at this
      omega

/-! ## C281 -/

/-- C281: `realloc` returns null and changes nothing, or returns memory that holds what the old
memory held, as far as it is long enough. -/
theorem C281_realloc_partial (a : Alloc) (size : Nat) (ha : w.get a.ptr = some a) (hA : Allowed c w (.realloc a.ptr size)) :
    ∃ h' r, realloc c w.heap a.ptr size = some (h', r) ∧ (r = none → h' = w.heap) ∧
      ∀ p, r = some p → ∀ k, k < words a.size → k < words size → h'.mem (p + k) = a.data k := by
  obtain ⟨fc, bins, W⟩ := reach_inv c S raw pool n P w R
  obtain ⟨hA1, h0, h1, hA2⟩ := hA
  obtain ⟨hlive, -⟩ := get_some w a.ptr a ha
  obtain ⟨x, k, hp, h2, h3, h4, -⟩ := W.block a hlive
  obtain ⟨e1, e2⟩ := adjust_eq c size h0 h1
  rw [e1] at hA2
  rcases realloc_step S W.inv W.merged x k h2 h3 size _ e1 (le_max_right _ _) e2 hA2 with e | ⟨h', fc', bins', q, n', e, I, M, l1, l2, U, N, L, K, D⟩
  · exact ⟨w.heap, none, by rw [hp]; exact e, fun _ => rfl, fun p hh => by cases hh⟩
  · refine ⟨h', some (q + 2), by rw [hp]; exact e, (fun hh => by cases hh), ?_⟩
    intro p hh i hi hi'
    cases hh
    rw [← W.data a hlive i hi, hp]
    refine D i (by omega) ?_
    unfold words at hi'
    omega

end

/-! ## Examples and counterexamples -/

/-- The settings of a device with 128 KiB of memory. -/
def cfg : Cfg := ⟨4, 17⟩

theorem cfg_settings : Settings cfg := ⟨by decide, by decide, by decide⟩

theorem cfg_pool : Pool cfg 100 1000 := ⟨by decide, by decide, by decide⟩

/-- The calls of a program, and what they returned. -/
def run (c : Cfg) : Heap → List (Nat × Nat) → Option (List (Option Nat))
  | _, [] => some []
  | h, (0, size) :: r =>
    match malloc c h size with
    | none => none
    | some (h, p) => (run c h r).map (p :: ·)
  | h, (p, 0) :: r =>
    match free c h p with
    | none => none
    | some h => run c h r
  | h, (p, size) :: r =>
    match realloc c h p size with
    | none => none
    | some (h, q) => (run c h r).map (q :: ·)

def start : Option Heap := (create cfg (fun _ => 0) 100 1000).join

/-- Three allocations, two of them given back, memory that grows in place and memory that moves. -/
example : (start.bind fun h => run cfg h [(0, 1000), (0, 1000), (0, 1000), (352, 0), (101, 2000), (101, 2500), (0, 900)]) =
    some [some 101, some 352, some 603, some 101, none, some 854] := by decide +kernel

/-- The hypotheses of C279–C281 hold for it: a reachable state with memory in use. -/
example : ∃ w, Reach cfg (fun _ => 0) 100 1000 w ∧ w.live.map Alloc.ptr = [101] ∧ Allowed cfg w (.realloc 101 2000) := by
  have hs : start.isSome := by decide +kernel
  obtain ⟨h, hh⟩ := Option.isSome_iff_exists.mp hs
  have hc : create cfg (fun _ => 0) 100 1000 = some (some h) := by
    unfold start at hh
    cases hq : create cfg (fun _ => 0) 100 1000 with
    | none => rw [hq] at hh; simp at hh
    | some q => rw [hq] at hh; simpa using hh
  have hm : (start.bind fun h => (malloc cfg h 1000).map Prod.snd) = some (some 101) := by decide +kernel
  rw [hh] at hm
  simp only [Option.bind_some, Option.map_eq_some_iff] at hm
  obtain ⟨⟨h', p⟩, e, hp⟩ := hm
  simp only at hp
  subst hp
  have ha : Allowed cfg ⟨h, []⟩ (.malloc 1000) := by
    show (mappingSearch cfg (adjust cfg 1000)).1 < cfg.flCount
    decide +kernel
  refine ⟨_, .step _ ⟨h', [⟨101, 1000, fun k => h'.mem (101 + k)⟩]⟩ (.malloc 1000) (.start h hc) ha (by simp only [step, e]), rfl, ?_⟩
  refine ⟨rfl, by decide, by decide, ?_⟩
  decide +kernel

/-- All of the pool can be had when nothing is in use, for instance 3860 of 3992 bytes. -/
example : roundUp cfg (adjust cfg 3860) ≤ 4 * (1000 - 2) := by decide +kernel

/-- C279 is false without the bound on the size: a request close to the largest block makes
`mapping_search` round up past the last list, and `tlsf_malloc` reads behind the bitmaps,
whatever the heap holds. -/
theorem C279_malloc_counterexample (h : Heap) : 131000 < 2 ^ cfg.flMax ∧ malloc cfg h 131000 = none := by
  refine ⟨by decide, ?_⟩
  unfold malloc
  have h1 : adjust cfg 131000 = 131000 := by decide +kernel
  have h2 : ¬ (mappingSearch cfg 131000).1 < cfg.flCount := by decide +kernel
  simp only [h1]
  rw [if_neg (by decide)]
  unfold search
  rw [if_neg h2]

/-- C281 is false for sizes from the largest block on: `realloc` of 128 KiB succeeds, cuts the
memory down to nothing and returns it; the next `malloc` hands out the same memory. -/
theorem C281_realloc_counterexample : (start.bind fun h => run cfg h [(0, 1000), (0, 1000), (101, 131072), (0, 900)]) =
    some [some 101, some 352, some 101, some 102] := by decide +kernel

end Props.Tlsf
