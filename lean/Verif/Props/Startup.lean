import Verif.Model.Startup

set_option autoImplicit false

/-!
# Theorems about the startup of Cortex-M (C276), `_sbrk_r` (C277) and `operator new` (C278)
-/

namespace Props.Startup

open Model.Startup

/-! ## Specification -/

/-- The regions written by the startup: sections with a load image and sections that are cleared. -/
def dests (l : Layout) : List (Nat × Nat) :=
  (l.copyIntern.map fun e => (e.2.1, e.2.2)) ++ l.zeroIntern ++ ((l.copyExtern.map fun e => (e.2.1, e.2.2)) ++ l.zeroExtern)

def Apart (a b : Nat × Nat) : Prop := a.2 ≤ b.1 ∨ b.2 ≤ a.1

/-- What the linker gives: no two sections overlap, and the load images are in none of them. -/
structure Linked (l : Layout) : Prop where
  apart : (dests l).Pairwise Apart
  images : ∀ e ∈ l.copyIntern ++ l.copyExtern, ∀ d ∈ dests l, Apart (e.1, e.1 + (e.2.2 - e.2.1)) d

/-- A function leaves address `a` alone. -/
def Keeps (a : Nat) (f : Mem → Mem) : Prop := ∀ m, f m a = m a

/-! ## Words -/

theorem copyWords_out (n : Nat) : ∀ (m : Mem) (src dst a : Nat), (a < dst ∨ dst + n ≤ a) → copyWords m src dst n a = m a := by
  induction n with
  | zero => intros; rfl
  | succ n ih =>
    intro m src dst a h
    rw [copyWords, ih _ _ _ _ (by omega), Function.update_of_ne (by omega)]

theorem copyWords_in (n : Nat) : ∀ (m : Mem) (src dst a : Nat), (src + n ≤ dst ∨ dst + n ≤ src) → dst ≤ a → a < dst + n →
    copyWords m src dst n a = m (src + (a - dst)) := by
  induction n with
  | zero => intros; omega
  | succ n ih =>
    intro m src dst a hs h1 h2
    rw [copyWords]
    by_cases hd : a = dst
    · subst hd
      rw [copyWords_out _ _ _ _ _ (by omega), Function.update_self, Nat.sub_self, Nat.add_zero]
    · rw [ih _ _ _ _ (by omega) (by omega) (by omega), Function.update_of_ne (by omega)]
      congr 1
      omega

theorem zeroWords_out (n : Nat) : ∀ (m : Mem) (dst a : Nat), (a < dst ∨ dst + n ≤ a) → zeroWords m dst n a = m a := by
  induction n with
  | zero => intros; rfl
  | succ n ih =>
    intro m dst a h
    rw [zeroWords, ih _ _ _ (by omega), Function.update_of_ne (by omega)]

theorem zeroWords_in (n : Nat) : ∀ (m : Mem) (dst a : Nat), dst ≤ a → a < dst + n → zeroWords m dst n a = 0 := by
  induction n with
  | zero => intros; omega
  | succ n ih =>
    intro m dst a h1 h2
    rw [zeroWords]
    by_cases hd : a = dst
    · subst hd
      rw [zeroWords_out _ _ _ _ (by omega), Function.update_self]
    · exact ih _ _ _ (by omega) (by omega)

/-! ## Tables -/

theorem tableCopy_out (t : List (Nat × Nat × Nat)) : ∀ (m : Mem) (a : Nat), (∀ e ∈ t, a < e.2.1 ∨ e.2.2 ≤ a) → tableCopy m t a = m a := by
  induction t with
  | nil => intros; rfl
  | cons e t ih =>
    intro m a h
    obtain ⟨s, d, p⟩ := e
    rw [tableCopy, ih _ _ (fun e he => h e (by simp [he]))]
    have := h (s, d, p) (by simp)
    simp only at this
    by_cases hdp : d ≤ p
    · exact copyWords_out _ _ _ _ _ (by omega)
    · have : p - d = 0 := by omega
      rw [this]
      rfl

theorem tableZero_out (t : List (Nat × Nat)) : ∀ (m : Mem) (a : Nat), (∀ e ∈ t, a < e.1 ∨ e.2 ≤ a) → tableZero m t a = m a := by
  induction t with
  | nil => intros; rfl
  | cons e t ih =>
    intro m a h
    obtain ⟨d, p⟩ := e
    rw [tableZero, ih _ _ (fun e he => h e (by simp [he]))]
    have := h (d, p) (by simp)
    simp only at this
    by_cases hdp : d ≤ p
    · exact zeroWords_out _ _ _ _ (by omega)
    · have : p - d = 0 := by omega
      rw [this]
      rfl

theorem tableCopy_in (t : List (Nat × Nat × Nat)) : ∀ (m : Mem), (t.map fun e => (e.2.1, e.2.2)).Pairwise Apart →
    (∀ e ∈ t, ∀ d ∈ t, Apart (e.1, e.1 + (e.2.2 - e.2.1)) (d.2.1, d.2.2)) →
    ∀ e ∈ t, ∀ a, e.2.1 ≤ a → a < e.2.2 → tableCopy m t a = m (e.1 + (a - e.2.1)) := by
  induction t with
  | nil => intro m _ _ e he; cases he
  | cons e0 t ih =>
    intro m hp hi e he a h1 h2
    rw [List.map_cons, List.pairwise_cons] at hp
    obtain ⟨s, d, p⟩ := e0
    rw [tableCopy]
    rcases List.mem_cons.mp he with rfl | het
    · simp only at h1 h2 ⊢
      rw [tableCopy_out _ _ _ (fun x hx => ?_)]
      · refine copyWords_in _ _ _ _ _ ?_ h1 (by omega)
        have := hi (s, d, p) (by simp) (s, d, p) (by simp)
        simp only [Apart] at this
        omega
      · have := hp.1 (x.2.1, x.2.2) (List.mem_map.mpr ⟨x, hx, rfl⟩)
        simp only [Apart] at this
        omega
    · rw [ih _ hp.2 (fun e he d hd => hi e (by simp [he]) d (by simp [hd])) e het a h1 h2]
      have := hi e (by simp [het]) (s, d, p) (by simp)
      simp only [Apart] at this
      by_cases hdp : d ≤ p
      · exact copyWords_out _ _ _ _ _ (by omega)
      · have h0 : p - d = 0 := by omega
        rw [h0]
        rfl

theorem tableZero_in (t : List (Nat × Nat)) : ∀ (m : Mem), t.Pairwise Apart →
    ∀ e ∈ t, ∀ a, e.1 ≤ a → a < e.2 → tableZero m t a = 0 := by
  induction t with
  | nil => intro m _ e he; cases he
  | cons e0 t ih =>
    intro m hp e he a h1 h2
    rw [List.pairwise_cons] at hp
    obtain ⟨d, p⟩ := e0
    rw [tableZero]
    rcases List.mem_cons.mp he with rfl | het
    · simp only at h1 h2 ⊢
      rw [tableZero_out _ _ _ (fun x hx => ?_)]
      · exact zeroWords_in _ _ _ _ h1 (by omega)
      · have := hp.1 x hx
        simp only [Apart] at this
        omega
    · exact ih _ hp.2 e het a h1 h2

theorem tableCall_keeps (fs : List (Mem → Mem)) (a : Nat) : ∀ m : Mem, (∀ f ∈ fs, Keeps a f) → tableCall m fs a = m a := by
  induction fs with
  | nil => intros; rfl
  | cons f fs ih =>
    intro m h
    rw [tableCall, ih _ (fun g hg => h g (by simp [hg])), h f (by simp)]

/-! ## C276 -/

variable {l : Layout}

/-- The first hook finds the internal sections as the program says: the initial values, zero, and
everything else untouched. -/
theorem C276_hooks (hl : Linked l) (m : Mem) :
    (∀ e ∈ l.copyIntern, ∀ a, e.2.1 ≤ a → a < e.2.2 → beforeHooks l m a = m (e.1 + (a - e.2.1))) ∧
      (∀ e ∈ l.zeroIntern, ∀ a, e.1 ≤ a → a < e.2 → beforeHooks l m a = 0) ∧
      ∀ a, (∀ d ∈ dests l, a < d.1 ∨ d.2 ≤ a) → beforeHooks l m a = m a := by
  have hA := hl.apart
  unfold dests at hA
  obtain ⟨h12, -, -⟩ := List.pairwise_append.mp hA
  obtain ⟨hc, hz, hcz⟩ := List.pairwise_append.mp h12
  unfold beforeHooks
  refine ⟨?_, ?_, ?_⟩
  · intro e he a h1 h2
    rw [tableZero_out]
    · refine tableCopy_in _ _ hc (fun e he d hd => hl.images e (by simp [he]) _ ?_) e he a h1 h2
      unfold dests
      simp only [List.mem_append, List.mem_map]
      exact .inl (.inl ⟨d, hd, rfl⟩)
    · intro z hz'
      have := hcz _ (List.mem_map.mpr ⟨e, he, rfl⟩) z hz'
      simp only [Apart] at this
      omega
  · intro e he a h1 h2
    exact tableZero_in _ _ hz e he a h1 h2
  · intro a ha
    rw [tableZero_out, tableCopy_out]
    · intro e he
      refine ha (e.2.1, e.2.2) ?_
      unfold dests
      simp only [List.mem_append, List.mem_map]
      exact .inl (.inl ⟨e, he, rfl⟩)
    · intro e he
      refine ha e ?_
      unfold dests
      simp only [List.mem_append]
      exact .inl (.inr he)

/-- The first constructor finds all sections as the program says, the external ones as well, but for
what hooks and heap changed: `a` is any address, and `src` the one its initial value comes from. -/
theorem C276_constructors (hl : Linked l) (hooks : List (Mem → Mem)) (heap : Mem → Mem) (m : Mem) (a : Nat) (hh : Keeps a heap) :
    (∀ e ∈ l.copyIntern, e.2.1 ≤ a → a < e.2.2 → (∀ f ∈ hooks, Keeps a f) → beforeConstructors l hooks heap m a = m (e.1 + (a - e.2.1))) ∧
      (∀ e ∈ l.zeroIntern, e.1 ≤ a → a < e.2 → (∀ f ∈ hooks, Keeps a f) → beforeConstructors l hooks heap m a = 0) ∧
      (∀ e ∈ l.copyExtern, e.2.1 ≤ a → a < e.2.2 → (∀ f ∈ hooks, Keeps (e.1 + (a - e.2.1)) f) →
        beforeConstructors l hooks heap m a = m (e.1 + (a - e.2.1))) ∧
      (∀ e ∈ l.zeroExtern, e.1 ≤ a → a < e.2 → beforeConstructors l hooks heap m a = 0) ∧
      ((∀ d ∈ dests l, a < d.1 ∨ d.2 ≤ a) → (∀ f ∈ hooks, Keeps a f) → beforeConstructors l hooks heap m a = m a) := by
  have hA := hl.apart
  unfold dests at hA
  obtain ⟨h12, h34, hcross⟩ := List.pairwise_append.mp hA
  obtain ⟨hc, hz, hcz⟩ := List.pairwise_append.mp h34
  obtain ⟨k1, k2, k3⟩ := C276_hooks hl m
  have hext : ∀ d : Nat × Nat, d ∈ (l.copyIntern.map fun e => (e.2.1, e.2.2)) ++ l.zeroIntern → d.1 ≤ a → a < d.2 →
      ∀ mm, tableZero (tableCopy mm l.copyExtern) l.zeroExtern a = mm a := by
    intro d hd h1 h2 mm
    rw [tableZero_out, tableCopy_out]
    · intro e he
      have := hcross d hd (e.2.1, e.2.2) (List.mem_append.mpr (.inl (List.mem_map.mpr ⟨e, he, rfl⟩)))
      simp only [Apart] at this
      omega
    · intro e he
      have := hcross d hd e (List.mem_append.mpr (.inr he))
      simp only [Apart] at this
      omega
  unfold beforeConstructors
  refine ⟨?_, ?_, ?_, ?_, ?_⟩
  · intro e he h1 h2 hk
    rw [hh, hext (e.2.1, e.2.2) (List.mem_append.mpr (.inl (List.mem_map.mpr ⟨e, he, rfl⟩))) h1 h2, tableCall_keeps _ _ _ hk, k1 e he a h1 h2]
  · intro e he h1 h2 hk
    rw [hh, hext e (List.mem_append.mpr (.inr he)) h1 h2, tableCall_keeps _ _ _ hk, k2 e he a h1 h2]
  · intro e he h1 h2 hk
    rw [hh, tableZero_out]
    · rw [tableCopy_in _ _ hc (fun e he d hd => hl.images e (by simp [he]) _ ?_) e he a h1 h2, tableCall_keeps _ _ _ hk, k3]
      · intro d hd
        have := hl.images e (by simp [he]) d hd
        simp only [Apart] at this
        omega
      · unfold dests
        simp only [List.mem_append, List.mem_map]
        exact .inr (.inl ⟨d, hd, rfl⟩)
    · intro z hz'
      have := hcz _ (List.mem_map.mpr ⟨e, he, rfl⟩) z hz'
      simp only [Apart] at this
      omega
  · intro e he h1 h2
    rw [hh]
    exact tableZero_in _ _ hz e he a h1 h2
  · intro ha hk
    rw [hh, tableZero_out, tableCopy_out, tableCall_keeps _ _ _ hk, k3 a ha]
    · intro e he
      refine ha (e.2.1, e.2.2) ?_
      unfold dests
      simp only [List.mem_append, List.mem_map]
      exact .inr (.inl ⟨e, he, rfl⟩)
    · intro e he
      refine ha e ?_
      unfold dests
      simp only [List.mem_append]
      exact .inr (.inr he)

/-- `main` finds what the constructors left, each called once, in the order of the table, on top of
the initialised memory. -/
theorem C276_main (hooks : List (Mem → Mem)) (heap : Mem → Mem) (cs : List (Mem → Mem)) (m : Mem) :
    beforeMain l hooks heap cs m = cs.foldl (fun m f => f m) (beforeConstructors l hooks heap m) := by
  unfold beforeMain
  generalize beforeConstructors l hooks heap m = x
  induction cs generalizing x with
  | nil => rfl
  | cons f cs ih => rw [tableCall, List.foldl_cons, ih]

/-- Two sections copied from flash (word 1000 on), one cleared. -/
def sample : Layout := ⟨[(1000, 0, 4), (1004, 4, 6)], [(6, 10)], [(1006, 500, 502)], [(502, 510)]⟩

example : Linked sample := ⟨by simp [sample, dests, Apart], by simp [sample, dests, Apart]⟩

example : beforeConstructors sample [] id (fun a => BitVec.ofNat 32 a) 5 = 1005#32 ∧ beforeConstructors sample [] id (fun a => BitVec.ofNat 32 a) 7 = 0#32 ∧
    beforeConstructors sample [] id (fun a => BitVec.ofNat 32 a) 501 = 1007#32 := by decide +kernel

/-! ## C277 -/

/-- A sequence of calls of `_sbrk_r`; the pieces (start, size) that were handed out. -/
def pieces (b : Brk) : List Nat → Option (Brk × List (Nat × Nat))
  | [] => some (b, [])
  | size :: t =>
    match sbrk b size with
    | none => none
    | some (b', p) => (pieces b' t).map fun r => (r.1, (p, size) :: r.2)

/-- What `_sbrk_r` hands out lies in the heap, one piece right behind the other. The sizes are
those of a `ptrdiff_t`, the heap is in the lower half of the address space. -/
theorem C277_pieces (sizes : List Nat) : ∀ (b b' : Brk) (ps : List (Nat × Nat)), b.top ≤ b.stop → b.stop < 2 ^ 31 → (∀ s ∈ sizes, s < 2 ^ 31) →
    pieces b sizes = some (b', ps) →
    (∀ p ∈ ps, b.top ≤ p.1 ∧ p.1 + p.2 < b.stop) ∧ (ps.Pairwise fun p q => p.1 + p.2 ≤ q.1) ∧ ps.map Prod.snd = sizes ∧ b'.top = b.top + sizes.sum ∧
      b'.stop = b.stop := by
  induction sizes with
  | nil =>
    intro b b' ps _ _ _ h
    simp only [pieces, Option.some.injEq, Prod.mk.injEq] at h
    obtain ⟨rfl, rfl⟩ := h
    simp
  | cons s t ih =>
    intro b b' ps hb hs hsz h
    have hs1 := hsz s (by simp)
    unfold pieces sbrk at h
    simp only at h
    have e : (((b.top : Int) + (s : Int)) % 2 ^ 32).toNat = b.top + s := by omega
    rw [e] at h
    by_cases hlt : b.top + s < b.stop
    · rw [if_pos hlt] at h
      simp only at h
      cases hp : pieces { b with top := b.top + s } t with
      | none => rw [hp] at h; cases h
      | some r =>
        rw [hp] at h
        simp only [Option.map_some, Option.some.injEq, Prod.mk.injEq] at h
        obtain ⟨rfl, rfl⟩ := h
        obtain ⟨i1, i2, i3, i4, i5⟩ := ih ⟨b.top + s, b.stop⟩ r.1 r.2 (by simp only; omega) hs (fun x hx => hsz x (by simp [hx])) hp
        simp only at i1 i4 i5
        refine ⟨?_, ?_, ?_, ?_, i5⟩
        · intro p hp
          rcases List.mem_cons.mp hp with rfl | hp
          · simp only; omega
          · have := i1 p hp
            omega
        · rw [List.pairwise_cons]
          refine ⟨?_, i2⟩
          intro p hp
          exact (i1 p hp).1
        · simp [i3]
        · rw [i4, List.sum_cons]
          omega
    · rw [if_neg hlt] at h
      cases h

example : pieces ⟨0x20000000, 0x20001000⟩ [16, 1000, 8] = some (⟨0x20000400, 0x20001000⟩, [(0x20000000, 16), (0x20000010, 1000), (0x200003f8, 8)]) := by
  decide +kernel

/-- Memory is handed out as long as it is there: refuted for the last byte of the heap. -/
theorem C277_last_counterexample : sbrk ⟨0x20000000, 0x20001000⟩ 4096 = none ∧ (sbrk ⟨0x20000000, 0x20001000⟩ 4095).isSome = true := by decide +kernel

/-- But for the last byte it is. -/
theorem C277_room_partial (b : Brk) (size : Nat) (hs : b.stop < 2 ^ 31) (hz : size < 2 ^ 31) (h : b.top + size < b.stop) :
    sbrk b size = some (⟨b.top + size, b.stop⟩, b.top) := by
  unfold sbrk
  have e : (((b.top : Int) + (size : Int)) % 2 ^ 32).toNat = b.top + size := by omega
  simp only [e]
  rw [if_pos h]

/-- Memory given back with a negative size may go below the heap: there is no check. -/
theorem C277_below_counterexample : sbrk ⟨0x20000000, 0x20001000⟩ (-16) = some (⟨0x1ffffff0, 0x20001000⟩, 0x20000000) := by decide +kernel

/-! ## C278 -/

/-- `new` never returns a null pointer: it returns what `malloc` gave for the size, after the new
handler was called for every failure before, or it fails with no handler installed (on AVR: at once). -/
theorem C278_new {S : Type} (e : Env S) (avr : Bool) (size : Nat) (fuel : Nat) : ∀ (s s' : S) (r : New), newAssert e avr size fuel s = some (s', r) →
    (∃ t, e.malloc t size = (s', match r with | .memory p => p | .failed => 0)) ∧ r ≠ .memory 0 ∧ (r = .failed → avr = true ∨ e.handler s' = none) := by
  induction fuel with
  | zero => intro s s' r h; cases h
  | succ fuel ih =>
    intro s s' r h
    unfold newAssert at h
    simp only at h
    by_cases h0 : (e.malloc s size).2 ≠ 0
    · rw [if_pos h0] at h
      simp only [Option.some.injEq, Prod.mk.injEq] at h
      obtain ⟨rfl, rfl⟩ := h
      exact ⟨⟨s, rfl⟩, by simpa using h0, by simp⟩
    · rw [if_neg h0] at h
      rw [not_not] at h0
      by_cases ha : avr = true
      · rw [if_pos ha] at h
        simp only [Option.some.injEq, Prod.mk.injEq] at h
        obtain ⟨rfl, rfl⟩ := h
        exact ⟨⟨s, by rw [← h0]⟩, by simp, fun _ => .inl ha⟩
      · rw [if_neg ha] at h
        cases hh : e.handler (e.malloc s size).1 with
        | none =>
          rw [hh] at h
          simp only [Option.some.injEq, Prod.mk.injEq] at h
          obtain ⟨rfl, rfl⟩ := h
          exact ⟨⟨s, by rw [← h0]⟩, by simp, fun _ => .inr hh⟩
        | some f =>
          rw [hh] at h
          exact ih _ _ _ h

/-- A heap with `n` bytes left, and a handler that frees 100 bytes once. -/
def heap100 : Env (Nat × Bool) :=
  ⟨fun s size => if size ≤ s.1 then ((s.1 - size, s.2), 1000) else (s, 0), fun s => if s.2 then some fun s => (s.1 + 100, false) else none⟩

example : newAssert heap100 false 150 3 (60, true) = some ((10, false), .memory 1000) ∧ newAssert heap100 false 170 3 (60, true) = some ((160, false), .failed) := by
  decide

/-- `new (std::nothrow)` should be `new` with null for a failure: refuted, the handler is not called. -/
theorem C278_nothrow_counterexample : newNothrow heap100 150 (60, true) = ((60, true), 0) ∧
    newAssert heap100 false 150 3 (60, true) = some ((10, false), .memory 1000) := by decide

/-- With no handler it is. -/
theorem C278_nothrow_partial {S : Type} (e : Env S) (hn : ∀ s, e.handler s = none) (size fuel : Nat) (s : S) (avr : Bool) :
    newAssert e avr size (fuel + 1) s = some ((newNothrow e size s).1, if (newNothrow e size s).2 = 0 then .failed else .memory (newNothrow e size s).2) := by
  unfold newAssert newNothrow
  simp only
  by_cases h0 : (e.malloc s size).2 = 0
  · rw [if_neg (by simpa using h0), if_pos h0, hn]
    simp
  · rw [if_pos h0, if_neg h0]

/-- `new` of an empty array succeeds: refuted on AVR, for every state of the heap. -/
theorem C278_empty_counterexample (h : Model.AvrHeap.Heap) (fuel : Nat) : newAssert avrEnv true 0 (fuel + 1) h = some (h, .failed) := by
  unfold newAssert
  simp [avrEnv, Model.AvrHeap.allocate]

end Props.Startup
