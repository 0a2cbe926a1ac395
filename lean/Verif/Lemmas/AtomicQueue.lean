import Verif.Spec.Fifo

namespace Modm.AtomicQueue
variable {α : Type}

/-- position `k` slots behind `t` in a ring of `n` slots -/
def wrap (n x : Nat) : Nat := if x < n then x else x - n

/-- representation relation between ring state and list -/
structure Rep (N : Nat) (q : Q α) (l : List α) : Prop where
  hN : N ≤ 65535
  len : q.buf.length = N + 1
  hd : q.head = wrap (N + 1) (q.tail + l.length)
  tl : q.tail ≤ N
  sz : l.length ≤ N
  el : ∀ k, k < l.length → q.buf[wrap (N + 1) (q.tail + k)]? = l[k]?

theorem idxMod_ge {N : Nat} (h : N ≤ 65535) : N + 1 ≤ idxMod N := by
  unfold idxMod; split <;> omega

theorem next_eq {N i : Nat} (h : N ≤ 65535) (hi : i ≤ N) :
    next N i = if i = N then 0 else i + 1 := by
  have := idxMod_ge h
  unfold next
  by_cases hiN : i = N
  · subst hiN
    simp only [if_pos]
    by_cases he : i + 1 = idxMod i
    · rw [he]; simp
    · rw [Nat.mod_eq_of_lt (by omega)]; simp
  · rw [Nat.mod_eq_of_lt (by omega)]
    simp [hiN]; omega

theorem rep_init {N : Nat} (b : List α) (hN : N ≤ 65535) (hb : b.length = N + 1) :
    Rep N (init b) [] where
  hN := hN
  len := hb
  hd := by simp [init, wrap]
  tl := by simp [init]
  sz := by simp
  el := by simp

theorem head_le {N : Nat} {q : Q α} {l : List α} (h : Rep N q l) : q.head ≤ N := by
  have := h.hd; have := h.tl; have := h.sz
  unfold wrap at *; split at * <;> omega

theorem full_iff {N : Nat} {q : Q α} {l : List α} (h : Rep N q l) :
    next N q.head = q.tail ↔ l.length = N := by
  rw [next_eq h.hN (head_le h)]
  have := h.hd; have := h.tl; have := h.sz
  unfold wrap at *; split at * <;> split <;> omega

theorem empty_iff {N : Nat} {q : Q α} {l : List α} (h : Rep N q l) :
    q.head = q.tail ↔ l.length = 0 := by
  have := h.hd; have := h.tl; have := h.sz
  unfold wrap at *; split at * <;> omega

theorem size_eq {N : Nat} {q : Q α} {l : List α} (h : Rep N q l) : getSize N q = l.length := by
  have h1 := h.hd; have := h.tl; have := h.sz
  have hm := idxMod_ge h.hN
  unfold getSize
  generalize idxMod N = m at *
  unfold wrap at h1
  split
  · rw [Nat.mod_eq_of_lt (by split at h1 <;> omega)]
    split at h1 <;> omega
  · have e : N + 1 + m - q.tail + q.head = m + l.length := by split at h1 <;> omega
    rw [e, Nat.add_mod_left, Nat.mod_eq_of_lt (by omega)]

theorem rep_push {N : Nat} {q : Q α} {l : List α} (h : Rep N q l) (x : α) :
    ∃ q', push N q x = some (q', decide (l.length < N)) ∧
      Rep N q' (if l.length < N then l ++ [x] else l) := by
  have hh := head_le h
  by_cases hf : l.length = N
  · refine ⟨q, ?_, ?_⟩
    · unfold push; simp [(full_iff h).2 hf, hf]
    · simpa [hf] using h
  · have hlt : l.length < N := by have := h.sz; omega
    have hne : next N q.head ≠ q.tail := fun e => hf ((full_iff h).1 e)
    refine ⟨{ q with buf := q.buf.set q.head x, head := next N q.head }, ?_, ?_⟩
    · have : q.head < q.buf.length := by rw [h.len]; omega
      simp [push, hne, this, hlt]
    · simp only [hlt, if_true]
      constructor
      · exact h.hN
      · simpa using h.len
      · have h1 := h.hd
        have := h.tl
        simp only [List.length_append, List.length_singleton]
        rw [next_eq h.hN hh]
        unfold wrap at *
        split at h1 <;> repeat' split
        all_goals omega
      · exact h.tl
      · simp; omega
      · intro k hk
        simp only [List.length_append, List.length_singleton] at hk
        by_cases hkl : k = l.length
        · subst hkl
          rw [← h.hd]
          simp [List.getElem?_set_self (by rw [h.len]; omega : q.head < q.buf.length)]
        · have hk' : k < l.length := by omega
          have hw : wrap (N+1) (q.tail + k) ≠ q.head := by
            have h1 := h.hd; have := h.tl
            rw [h1]; unfold wrap; repeat' split
            all_goals omega
          show (q.buf.set q.head x)[wrap (N+1) (q.tail + k)]? = _
          rw [List.getElem?_set_ne (Ne.symm hw), h.el k hk', List.getElem?_append_left hk']

theorem rep_pop {N : Nat} {q : Q α} {a : α} {l : List α} (h : Rep N q (a :: l)) :
    Rep N (pop N q) l := by
  have ht : next N q.tail = if q.tail = N then 0 else q.tail + 1 := next_eq h.hN h.tl
  have hsz := h.sz
  have hd := h.hd
  have htl := h.tl
  simp only [List.length_cons] at hsz hd
  constructor
  · exact h.hN
  · exact h.len
  · simp only [pop, ht]; rw [hd]; unfold wrap; repeat' split
    all_goals omega
  · simp only [pop, ht]; split <;> omega
  · omega
  · intro k hk
    have := h.el (k+1) (by simp; omega)
    simp only [List.getElem?_cons_succ] at this
    rw [← this]
    have : wrap (N+1) ((pop N q).tail + k) = wrap (N+1) (q.tail + (k+1)) := by
      simp only [pop, ht]; unfold wrap; repeat' split
      all_goals omega
    rw [this]; rfl

theorem rep_get {N : Nat} {q : Q α} {a : α} {l : List α} (h : Rep N q (a :: l)) :
    get q = some a := by
  have := h.el 0 (by simp)
  have ht : wrap (N+1) (q.tail + 0) = q.tail := by
    have := h.tl; unfold wrap; split <;> omega
  rw [ht] at this
  simpa [get] using this

theorem step_refines {N : Nat} {q : Q α} {l l' : List α} {o : Op α} {r : Out α}
    (h : Rep N q l) (hs : Spec.Fifo.step N l o = some (l', r)) :
    ∃ q', step N q o = some (q', r) ∧ Rep N q' l' := by
  cases o with
  | push x =>
    obtain ⟨q', e, hr⟩ := rep_push h x
    refine ⟨q', ?_, ?_⟩
    · simp only [step, e, Option.map_some]
      simp only [Spec.Fifo.step] at hs
      split at hs
      · simp_all
      · rename_i hn
        simp only [Option.some.injEq, Prod.mk.injEq] at hs
        rw [← hs.2]; simp [hn]
    · simp only [Spec.Fifo.step] at hs
      split at hs <;> simp_all
  | pop =>
    cases l with
    | nil => simp [Spec.Fifo.step] at hs
    | cons a l =>
      simp only [Spec.Fifo.step, Option.some.injEq, Prod.mk.injEq] at hs
      obtain ⟨rfl, rfl⟩ := hs
      exact ⟨pop N q, rfl, rep_pop h⟩
  | get =>
    cases l with
    | nil => simp [Spec.Fifo.step] at hs
    | cons a l =>
      simp only [Spec.Fifo.step, Option.some.injEq, Prod.mk.injEq] at hs
      obtain ⟨rfl, rfl⟩ := hs
      exact ⟨q, by simp [step, rep_get h], h⟩
  | isEmpty =>
    simp only [Spec.Fifo.step, Option.some.injEq, Prod.mk.injEq] at hs
    obtain ⟨rfl, rfl⟩ := hs
    refine ⟨q, ?_, h⟩
    have := empty_iff h
    simp only [step, isEmpty]
    congr 3
    rw [Bool.eq_iff_iff]; simpa using this
  | isFull =>
    simp only [Spec.Fifo.step, Option.some.injEq, Prod.mk.injEq] at hs
    obtain ⟨rfl, rfl⟩ := hs
    refine ⟨q, ?_, h⟩
    have := full_iff h
    simp only [step, isFull]
    congr 3
    rw [Bool.eq_iff_iff]; simpa using this
  | getSize =>
    simp only [Spec.Fifo.step, Option.some.injEq, Prod.mk.injEq] at hs
    obtain ⟨rfl, rfl⟩ := hs
    exact ⟨q, by simp [step, size_eq h], h⟩
  | isNearlyFull =>
    simp only [Spec.Fifo.step] at hs
    split at hs
    · simp only [Option.some.injEq, Prod.mk.injEq] at hs
      obtain ⟨rfl, rfl⟩ := hs
      refine ⟨q, ?_, h⟩
      simp only [step, isNearlyFull, size_eq h]
      congr 4
      simp; omega
    · simp at hs
  | isNearlyEmpty =>
    simp only [Spec.Fifo.step] at hs
    split at hs
    · simp only [Option.some.injEq, Prod.mk.injEq] at hs
      obtain ⟨rfl, rfl⟩ := hs
      exact ⟨q, by simp only [step, isNearlyEmpty, size_eq h], h⟩
    · simp at hs

theorem run_refines {N : Nat} (ops : List (Op α)) : ∀ {q : Q α} {l l' : List α} {rs : List (Out α)},
    Rep N q l → Spec.Fifo.run N l ops = some (l', rs) →
    ∃ q', run N q ops = some (q', rs) ∧ Rep N q' l' := by
  induction ops with
  | nil => intro q l l' rs h hs; simp [Spec.Fifo.run] at hs; obtain ⟨rfl, rfl⟩ := hs; exact ⟨q, rfl, h⟩
  | cons o os ih =>
    intro q l l' rs h hs
    simp only [Spec.Fifo.run] at hs
    split at hs
    · simp at hs
    · rename_i l1 r e
      split at hs
      · simp at hs
      · rename_i l2 rs' e2
        simp only [Option.some.injEq, Prod.mk.injEq] at hs
        obtain ⟨rfl, rfl⟩ := hs
        obtain ⟨q1, e1, h1⟩ := step_refines h e
        obtain ⟨q2, e3, h2⟩ := ih h1 e2
        exact ⟨q2, by simp [run, e1, e3], h2⟩

end Modm.AtomicQueue
