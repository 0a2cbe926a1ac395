import Verif.Spec.Deque
set_option autoImplicit false
namespace Modm.Deque
variable {α : Type}

def wrap (n x : Nat) : Nat := if x < n then x else x - n

structure Rep (N : Nat) (d : D α) (l : List α) : Prop where
  hN : N ≤ 65535
  hN0 : 0 < N
  len : d.buf.length = N
  tl : d.tail < N
  hdl : d.head < N
  sz : d.size = l.length
  le : l.length ≤ N
  hd : wrap N (d.head + 1) = wrap N (d.tail + l.length)
  el : ∀ k, k < l.length → d.buf[wrap N (d.tail + k)]? = l[k]?

theorem idxMod_gt {N : Nat} (h : N ≤ 65535) : N < idxMod N := by
  unfold idxMod; split <;> omega

theorem inc_eq {N i : Nat} (h : N ≤ 65535) (hi : i < N) : inc N i = wrap N (i + 1) := by
  have := idxMod_gt h
  unfold inc wrap
  split
  · split <;> omega
  · rw [Nat.mod_eq_of_lt (by omega)]; split <;> omega

theorem dec_eq {N i : Nat} (h : N ≤ 65535) (hi : i < N) : dec N i = wrap N (i + (N - 1)) := by
  have := idxMod_gt h
  unfold dec wrap
  split
  · rename_i h0
    have : i = 0 := by simpa using h0
    rw [Nat.mod_eq_of_lt (by omega)]; split <;> omega
  · rename_i h0
    have : i ≠ 0 := by simpa using h0
    split <;> omega

theorem rep_init {N : Nat} (b : List α) (hN : N ≤ 65535) (h0 : 0 < N) (hb : b.length = N) :
    Rep N (init N b) [] := by
  by_cases h1 : N = 1
  · subst h1
    exact ⟨hN, h0, hb, by simp [init], by simp [init], rfl, by simp, by simp [init, wrap], by simp⟩
  · refine ⟨hN, h0, hb, ?_, h0, rfl, by simp, ?_, by simp⟩
    · simp [init, h1]; omega
    · simp [init, h1]

theorem rep_clear {N : Nat} {d : D α} {l : List α} (h : Rep N d l) : Rep N (clear N d) [] :=
  rep_init d.buf h.hN h.hN0 h.len

theorem rep_get {N : Nat} {d : D α} {l : List α} (h : Rep N d l) {n : Nat} {v : α} (hv : l[n]? = some v) :
    get N d n = some v := by
  have hn : n < l.length := (List.getElem?_eq_some_iff.1 hv).1
  have := h.el n hn
  rw [hv] at this
  have h1 := h.tl; have h2 := h.le
  unfold get
  unfold wrap at this
  split at this
  · rw [if_neg (by omega)]; exact this
  · rw [if_pos (by omega)]; exact this

theorem rep_rget {N : Nat} {d : D α} {l : List α} (h : Rep N d l) {n : Nat} {v : α}
    (hv : l.reverse[n]? = some v) : rget N d n = some v := by
  have hn : n < l.length := by simpa using (List.getElem?_eq_some_iff.1 hv).1
  have := h.el (l.length - 1 - n) (by omega)
  rw [List.getElem?_reverse hn] at hv
  rw [hv] at this
  have h1 := h.tl; have h2 := h.le; have h3 := h.hd; have h4 := h.hdl
  have e : (if d.head < n then N - (n - d.head) else d.head - n) = wrap N (d.tail + (l.length - 1 - n)) := by
    unfold wrap at *
    repeat' split
    all_goals split at h3 <;> split at h3 <;> omega
  rw [← e] at this
  unfold rget
  split <;> simp_all

theorem rep_front {N : Nat} {d : D α} {l : List α} (h : Rep N d l) {v : α} (hv : l.head? = some v) :
    getFront d = some v := by
  have h0 : l[0]? = some v := by rw [← hv]; cases l <;> rfl
  have := rep_get h h0
  unfold get at this
  rw [if_neg (by have := h.tl; omega)] at this
  exact this

theorem rep_back {N : Nat} {d : D α} {l : List α} (h : Rep N d l) {v : α} (hv : l.getLast? = some v) :
    getBack d = some v := by
  have h0 : l.reverse[0]? = some v := by rw [← hv, ← List.head?_reverse]; cases l.reverse <;> rfl
  have := rep_rget h h0
  unfold rget at this
  rw [if_neg (by omega)] at this
  exact this

/-- appending when there is room -/
theorem rep_app {N : Nat} {d : D α} {l : List α} (h : Rep N d l) (x : α) (hl : l.length < N) :
    Rep N { d with head := wrap N (d.head + 1), buf := d.buf.set (wrap N (d.head + 1)) x, size := l.length + 1 }
      (l ++ [x]) := by
  have h1 := h.tl; have h2 := h.le; have h3 := h.hd; have h4 := h.hdl
  refine ⟨h.hN, h.hN0, by simpa using h.len, h1, ?_, by simp, by simp; omega, ?_, ?_⟩
  · simp only [wrap]; split <;> omega
  · simp only [List.length_append, List.length_singleton]
    unfold wrap at *
    repeat' split
    all_goals split at h3 <;> split at h3 <;> omega
  · intro k hk
    simp only [List.length_append, List.length_singleton] at hk
    show (d.buf.set _ x)[wrap N (d.tail + k)]? = _
    rw [h3]
    by_cases hkl : k = l.length
    · subst hkl
      rw [List.getElem?_set_self (by rw [h.len]; unfold wrap; split <;> omega)]
      simp
    · have hk' : k < l.length := by omega
      rw [List.getElem?_set_ne, h.el k hk', List.getElem?_append_left hk']
      unfold wrap; repeat' split
      all_goals omega

theorem rep_prep {N : Nat} {d : D α} {l : List α} (h : Rep N d l) (x : α) (hl : l.length < N) :
    Rep N { d with tail := wrap N (d.tail + (N - 1)), buf := d.buf.set (wrap N (d.tail + (N - 1))) x,
                   size := l.length + 1 } (x :: l) := by
  have h1 := h.tl; have h2 := h.le; have h3 := h.hd; have h4 := h.hdl
  have hw : wrap N (d.tail + (N - 1)) < N := by unfold wrap; split <;> omega
  refine ⟨h.hN, h.hN0, by simpa using h.len, hw, h4, by simp, by simp; omega, ?_, ?_⟩
  · show wrap N (d.head + 1) = _
    rw [h3]; simp only [List.length_cons]
    unfold wrap
    repeat' split
    all_goals omega
  · intro k hk
    simp only [List.length_cons] at hk
    show (d.buf.set _ x)[wrap N (wrap N (d.tail + (N - 1)) + k)]? = _
    cases k with
    | zero =>
      have : wrap N (wrap N (d.tail + (N - 1)) + 0) = wrap N (d.tail + (N - 1)) := by
        rw [Nat.add_zero]; exact if_pos hw
      rw [this, List.getElem?_set_self (by rw [h.len]; exact hw)]; rfl
    | succ k =>
      have e : wrap N (wrap N (d.tail + (N - 1)) + (k + 1)) = wrap N (d.tail + k) := by
        unfold wrap; repeat' split
        all_goals omega
      have hk' : k < l.length := by omega
      rw [e, List.getElem?_set_ne, h.el k hk', List.getElem?_cons_succ]
      unfold wrap; repeat' split
      all_goals omega

theorem rep_tail {N : Nat} {d : D α} {a : α} {l : List α} (h : Rep N d (a :: l)) :
    Rep N { d with tail := wrap N (d.tail + 1), size := l.length } l := by
  have h1 := h.tl; have h2 := h.le; have h3 := h.hd; have h4 := h.hdl
  simp only [List.length_cons] at h2 h3
  refine ⟨h.hN, h.hN0, h.len, ?_, h4, rfl, by omega, ?_, ?_⟩
  · simp only [wrap]; split <;> omega
  · show wrap N (d.head + 1) = _
    rw [h3]; simp only [wrap]
    repeat' split
    all_goals omega
  · intro k hk
    have := h.el (k + 1) (by simp; omega)
    rw [List.getElem?_cons_succ] at this
    rw [← this]
    have e : wrap N (wrap N (d.tail + 1) + k) = wrap N (d.tail + (k + 1)) := by
      unfold wrap; repeat' split
      all_goals omega
    show d.buf[wrap N (wrap N (d.tail + 1) + k)]? = _
    rw [e]

theorem rep_dropLast {N : Nat} {d : D α} {l : List α} (h : Rep N d l) (hl : l ≠ []) :
    Rep N { d with head := wrap N (d.head + (N - 1)), size := l.length - 1 } l.dropLast := by
  have h1 := h.tl; have h2 := h.le; have h3 := h.hd; have h4 := h.hdl
  have hp : 0 < l.length := List.length_pos_iff.2 hl
  refine ⟨h.hN, h.hN0, h.len, h1, ?_, by simp, by simp; omega, ?_, ?_⟩
  · simp only [wrap]; split <;> omega
  · simp only [List.length_dropLast]
    unfold wrap at *
    repeat' split
    all_goals split at h3 <;> split at h3 <;> omega
  · intro k hk
    simp only [List.length_dropLast] at hk
    rw [List.getElem?_dropLast, if_pos (by omega)]
    exact h.el k (by omega)

theorem step_refines {N : Nat} {d : D α} {l l' : List α} {o : Op α} {r : Out α} (h : Rep N d l)
    (hs : Spec.Deque.step N l o = some (l', r)) : ∃ d', step N d o = some (d', r) ∧ Rep N d' l' := by
  have hm := idxMod_gt h.hN
  have hi := fun {i} (hi : i < N) => inc_eq h.hN hi
  have hdc := fun {i} (hi : i < N) => dec_eq h.hN hi
  have h1 := h.tl; have h2 := h.le; have h4 := h.hdl; have h0 := h.hN0
  have hwr : ∀ i, i < 2 * N → wrap N i < N := by intro i hi; unfold wrap; split <;> omega
  cases o with
  | append x =>
    simp only [Spec.Deque.step] at hs
    split at hs <;> (simp only [Option.some.injEq, Prod.mk.injEq] at hs; obtain ⟨rfl, rfl⟩ := hs)
    · rename_i hlt
      refine ⟨_, ?_, rep_app h x hlt⟩
      have : ¬ l.length = N := by omega
      simp [step, append, isFull, h.sz, this, store, hi h4, h.len, hwr (d.head + 1) (by omega)]
      exact Nat.mod_eq_of_lt (by omega)
    · rename_i hlt
      refine ⟨d, ?_, h⟩
      have : l.length = N := by omega
      simp [step, append, isFull, h.sz, this]
  | prepend x =>
    simp only [Spec.Deque.step] at hs
    split at hs <;> (simp only [Option.some.injEq, Prod.mk.injEq] at hs; obtain ⟨rfl, rfl⟩ := hs)
    · rename_i hlt
      refine ⟨_, ?_, rep_prep h x hlt⟩
      have : ¬ l.length = N := by omega
      simp [step, prepend, isFull, h.sz, this, store, hdc h1, h.len, hwr (d.tail + (N - 1)) (by omega)]
      exact Nat.mod_eq_of_lt (by omega)
    · rename_i hlt
      refine ⟨d, ?_, h⟩
      have : l.length = N := by omega
      simp [step, prepend, isFull, h.sz, this]
  | appendOverwrite x =>
    simp only [Spec.Deque.step] at hs
    split at hs <;> (simp only [Option.some.injEq, Prod.mk.injEq] at hs; obtain ⟨rfl, rfl⟩ := hs)
    · rename_i hlt
      refine ⟨_, ?_, rep_app h x hlt⟩
      have : ¬ l.length = N := by omega
      simp [step, appendOverwrite, isFull, h.sz, this, store, hi h4, h.len, hwr (d.head + 1) (by omega)]
      exact Nat.mod_eq_of_lt (by omega)
    · rename_i hlt
      have hlN : l.length = N := by omega
      cases l with
      | nil => simp at hlN; omega
      | cons a l =>
        have ht := rep_tail h
        simp only [List.length_cons] at hlN
        refine ⟨_, ?_, rep_app ht x (by omega)⟩
        simp [step, appendOverwrite, isFull, h.sz, hlN, store, hi h4, hi h1, h.len,
          hwr (d.head + 1) (by omega)]
  | prependOverwrite x =>
    simp only [Spec.Deque.step] at hs
    split at hs <;> (simp only [Option.some.injEq, Prod.mk.injEq] at hs; obtain ⟨rfl, rfl⟩ := hs)
    · rename_i hlt
      refine ⟨_, ?_, rep_prep h x hlt⟩
      have : ¬ l.length = N := by omega
      simp [step, prependOverwrite, isFull, h.sz, this, store, hdc h1, h.len, hwr (d.tail + (N - 1)) (by omega)]
      exact Nat.mod_eq_of_lt (by omega)
    · rename_i hlt
      have hlN : l.length = N := by omega
      have hne : l ≠ [] := by rintro rfl; simp at hlN; omega
      have ht := rep_dropLast h hne
      refine ⟨_, ?_, rep_prep ht x (by simp; omega)⟩
      simp [step, prependOverwrite, isFull, h.sz, hlN, store, hdc h4, hdc h1, h.len,
        hwr (d.tail + (N - 1)) (by omega)]
      omega
  | removeFront =>
    simp only [Spec.Deque.step] at hs
    split at hs
    · simp at hs
    · simp only [Option.some.injEq, Prod.mk.injEq] at hs; obtain ⟨rfl, rfl⟩ := hs
      cases l with
      | nil => contradiction
      | cons a l =>
        refine ⟨_, ?_, rep_tail h⟩
        simp [step, removeFront, hi h1, h.sz]
        exact Nat.mod_eq_of_lt (by simp at h2; omega)
  | removeBack =>
    simp only [Spec.Deque.step] at hs
    split at hs
    · simp at hs
    · rename_i hne
      simp only [Option.some.injEq, Prod.mk.injEq] at hs; obtain ⟨rfl, rfl⟩ := hs
      refine ⟨_, ?_, rep_dropLast h hne⟩
      have hp : 0 < l.length := List.length_pos_iff.2 hne
      simp [step, removeBack, hdc h4, h.sz]
      rw [show l.length + idxMod N - 1 = (l.length - 1) + idxMod N by omega, Nat.add_mod_right]
      exact Nat.mod_eq_of_lt (by omega)
  | clear =>
    simp only [Spec.Deque.step, Option.some.injEq, Prod.mk.injEq] at hs; obtain ⟨rfl, rfl⟩ := hs
    exact ⟨_, rfl, rep_clear h⟩
  | getFront =>
    simp only [Spec.Deque.step, Option.map_eq_some_iff, Prod.mk.injEq] at hs
    obtain ⟨v, hv, rfl, rfl⟩ := hs
    exact ⟨d, by simp [step, rep_front h hv], h⟩
  | getBack =>
    simp only [Spec.Deque.step, Option.map_eq_some_iff, Prod.mk.injEq] at hs
    obtain ⟨v, hv, rfl, rfl⟩ := hs
    exact ⟨d, by simp [step, rep_back h hv], h⟩
  | get n =>
    simp only [Spec.Deque.step, Option.map_eq_some_iff, Prod.mk.injEq] at hs
    obtain ⟨v, hv, rfl, rfl⟩ := hs
    exact ⟨d, by simp [step, rep_get h hv], h⟩
  | rget n =>
    simp only [Spec.Deque.step, Option.map_eq_some_iff, Prod.mk.injEq] at hs
    obtain ⟨v, hv, rfl, rfl⟩ := hs
    exact ⟨d, by simp [step, rep_rget h hv], h⟩
  | isEmpty =>
    simp only [Spec.Deque.step, Option.some.injEq, Prod.mk.injEq] at hs; obtain ⟨rfl, rfl⟩ := hs
    refine ⟨d, ?_, h⟩
    simp only [step, isEmpty, h.sz]; cases l <;> simp
  | isFull =>
    simp only [Spec.Deque.step, Option.some.injEq, Prod.mk.injEq] at hs; obtain ⟨rfl, rfl⟩ := hs
    exact ⟨d, by simp [step, isFull, h.sz], h⟩
  | getSize =>
    simp only [Spec.Deque.step, Option.some.injEq, Prod.mk.injEq] at hs; obtain ⟨rfl, rfl⟩ := hs
    exact ⟨d, by simp [step, getSize, h.sz], h⟩

theorem run_refines {N : Nat} (os : List (Op α)) : ∀ {d : D α} {l l' : List α} {rs : List (Out α)},
    Rep N d l → Spec.Deque.run N l os = some (l', rs) → ∃ d', run N d os = some (d', rs) ∧ Rep N d' l' := by
  induction os with
  | nil => intro d l l' rs h hs; simp [Spec.Deque.run] at hs; obtain ⟨rfl, rfl⟩ := hs; exact ⟨d, rfl, h⟩
  | cons o os ih =>
    intro d l l' rs h hs
    simp only [Spec.Deque.run, Option.bind_eq_bind, Option.bind_eq_some_iff] at hs
    obtain ⟨⟨l1, r⟩, h1, ⟨l2, rs2⟩, h2, h3⟩ := hs
    simp at h3; obtain ⟨rfl, rfl⟩ := h3
    obtain ⟨d1, e1, R1⟩ := step_refines h h1
    obtain ⟨d2, e2, R2⟩ := ih R1 h2
    exact ⟨d2, by simp [run, e1, e2], R2⟩

/-- iterator that has been advanced `k` times from `begin()` -/
def itAt (N : Nat) (d : D α) (k : Nat) : It := { index := wrap N (d.tail + k), count := k }

theorem incr_at {N : Nat} {d : D α} {l : List α} (h : Rep N d l) {k : Nat} (hk : k + 1 < l.length) :
    (itAt N d k).incr N d = itAt N d (k + 1) := by
  have hm := idxMod_gt h.hN
  have h1 := h.tl; have h2 := h.le
  have hw : wrap N (d.tail + k) < N := by unfold wrap; split <;> omega
  simp only [It.incr, itAt]
  have e1 : (k + 1) % idxMod N = k + 1 := Nat.mod_eq_of_lt (by omega)
  have e2 : (wrap N (d.tail + k) + 1) % idxMod N = wrap N (d.tail + k) + 1 := Nat.mod_eq_of_lt (by omega)
  have e3 : ¬ (k + 1 ≥ d.size) := by rw [h.sz]; omega
  simp only [e1, e2, e3, if_false]
  congr 1
  unfold wrap at *
  repeat' split
  all_goals omega

theorem incr_last {N : Nat} {d : D α} {l : List α} (h : Rep N d l) {k : Nat} (hk : k + 1 = l.length) :
    (itAt N d k).incr N d = { index := N, count := l.length } := by
  have hm := idxMod_gt h.hN
  have h2 := h.le
  simp only [It.incr, itAt]
  have e1 : (k + 1) % idxMod N = k + 1 := Nat.mod_eq_of_lt (by omega)
  have e3 : k + 1 ≥ d.size := by rw [h.sz]; omega
  simp only [e1, e3, if_true]; rw [hk]

theorem itAt_zero {N : Nat} {d : D α} {l : List α} (h : Rep N d l) : itAt N d 0 = begin d := by
  have := h.tl
  simp only [itAt, begin, wrap]; rw [if_pos (by omega)]; rfl

theorem advance_at {N : Nat} {d : D α} {l : List α} (h : Rep N d l) (k : Nat) : k < l.length →
    advance N d k = itAt N d k := by
  induction k with
  | zero => intro _; exact (itAt_zero h).symm
  | succ k ih => intro hk; rw [advance, ih (by omega), incr_at h hk]

theorem decr_at {N : Nat} {d : D α} {l : List α} (h : Rep N d l) {k : Nat} (hk : k + 1 < l.length) :
    (itAt N d (k + 1)).decr N = itAt N d k := by
  have hm := idxMod_gt h.hN
  have h1 := h.tl; have h2 := h.le
  have e1 : (N - 1) % idxMod N = N - 1 := Nat.mod_eq_of_lt (by omega)
  simp only [It.decr, itAt, e1]
  simp
  unfold wrap
  repeat' split
  all_goals omega

theorem loop_at {N : Nat} {d : D α} {l : List α} (h : Rep N d l) (fuel : Nat) : ∀ (k : Nat), k < l.length →
    l.length ≤ k + fuel → loop N d fuel (itAt N d k) = some (some (l.drop k)) := by
  induction fuel with
  | zero => intro k hk hf; omega
  | succ f ih =>
    intro k hk hf
    have h1 := h.tl; have h2 := h.le
    have hw : wrap N (d.tail + k) < N := by unfold wrap; split <;> omega
    have hne : (itAt N d k).ne (end' N) = true := by simp [It.ne, itAt, end']; omega
    have hx : d.buf[(itAt N d k).index]? = some l[k] := by
      show d.buf[wrap N (d.tail + k)]? = _
      rw [h.el k hk, List.getElem?_eq_getElem hk]
    rw [loop, if_pos hne, hx]
    rw [List.drop_eq_getElem_cons hk]
    by_cases hl : k + 1 = l.length
    · rw [incr_last h hl]
      have : loop N d f { index := N, count := l.length } = some (some []) := by
        cases f <;> simp [loop, It.ne, end']
      simp [this, hl]
    · rw [incr_at h (by omega)]
      simp [ih (k + 1) (by omega) (by omega)]

end Modm.Deque
