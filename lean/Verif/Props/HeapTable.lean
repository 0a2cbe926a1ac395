import Verif.Model.HeapTable
set_option autoImplicit false

/-! # Properties of the fault storage and the heap table of Cortex-M -/

namespace Props.HeapTable
open Model.HeapTable

/-! ## Reports -/

/-- The bytes of a report: those of all calls with elements of 1, 2 or 4
bytes. -/
def payload (calls : List (Nat × List (BitVec 8))) : List (BitVec 8) :=
  (calls.filter fun c => c.1 == 1 || c.1 == 2 || c.1 == 4).flatMap Prod.snd

theorem getD_right (l l' : List (BitVec 8)) (k : Nat) : (l ++ l').getD (l.length + k) 0 = l'.getD k 0 := by
  rw [List.getD_eq_getElem?_getD, List.getD_eq_getElem?_getD, List.getElem?_append_right (by omega), Nat.add_sub_cancel_left]

theorem getD_left (l l' : List (BitVec 8)) (k : Nat) (h : k < l.length) : (l ++ l').getD k 0 = l.getD k 0 := by
  rw [List.getD_eq_getElem?_getD, List.getD_eq_getElem?_getD, List.getElem?_append_left h]

/-- The memory with `l` stored from `a` on. -/
def stored (m : Nat → BitVec 8) (a : Nat) (l : List (BitVec 8)) : Nat → BitVec 8 :=
  fun p => if a ≤ p ∧ p < a + l.length then l.getD (p - a) 0 else m p

theorem stored_nil (m : Nat → BitVec 8) (a : Nat) : stored m a [] = m := by
  funext p
  unfold stored
  rw [if_neg (by rw [List.length_nil]; omega)]

theorem stored_cons (m : Nat → BitVec 8) (a : Nat) (b : BitVec 8) (l : List (BitVec 8)) :
    stored (Function.update m a b) (a + 1) l = stored m a (b :: l) := by
  funext p
  unfold stored
  simp only [List.length_cons, Function.update_apply]
  by_cases h : a ≤ p ∧ p < a + (l.length + 1)
  · rw [if_pos h]
    by_cases h' : p = a
    · subst h'
      rw [if_neg (by omega)]
      simp
    · rw [if_pos ⟨by omega, by omega⟩]
      obtain ⟨k, rfl⟩ : ∃ k, p = a + 1 + k := ⟨p - (a + 1), by omega⟩
      rw [show a + 1 + k - (a + 1) = k by omega, show a + 1 + k - a = k + 1 by omega]
      simp
  · rw [if_neg h, if_neg (by omega), if_neg (by omega)]

theorem stored_append (m : Nat → BitVec 8) (a : Nat) (l l' : List (BitVec 8)) :
    stored (stored m a l) (a + l.length) l' = stored m a (l ++ l') := by
  funext p
  unfold stored
  simp only [List.length_append]
  by_cases h : a + l.length ≤ p ∧ p < a + l.length + l'.length
  · rw [if_pos h, if_pos ⟨by omega, by omega⟩]
    obtain ⟨k, rfl⟩ : ∃ k, p = a + l.length + k := ⟨p - (a + l.length), by omega⟩
    rw [show a + l.length + k - (a + l.length) = k by omega, show a + l.length + k - a = l.length + k by omega]
    rw [getD_right]
  · rw [if_neg h]
    by_cases h' : a ≤ p ∧ p < a + l.length
    · rw [if_pos h', if_pos ⟨by omega, by omega⟩, getD_left _ _ _ (by omega)]
    · rw [if_neg h', if_neg (by omega)]

/-- One step inside of the first region. -/
theorem next_in (t : Region) (rest : List Region) (w p : Nat) (h : p < t.stop) (hw : p + 1 ≠ w) :
    It.next (t :: rest) w ⟨0, p⟩ = some ⟨0, p + 1⟩ := by
  unfold It.next
  simp only [List.getElem?_cons_zero]
  rw [if_neg]
  omega

theorem writeBytes_in (t : Region) (rest : List Region) (w : Nat) : ∀ (l : List (BitVec 8)) (s : St) (p : Nat),
    p + l.length ≤ t.stop → (¬ (p < w ∧ w ≤ p + l.length)) →
    writeBytes (t :: rest) w l (s, ⟨0, p⟩) = some ({ s with mem := stored s.mem p l }, ⟨0, p + l.length⟩) := by
  intro l
  induction l with
  | nil => intro s p _ _; simp [writeBytes, stored_nil]
  | cons b l ih =>
    intro s p h1 h2
    simp only [List.length_cons] at h1 h2
    unfold writeBytes
    rw [next_in t rest w p (by omega) (by omega)]
    simp only
    rw [ih _ _ (by omega) (by omega)]
    simp only [stored_cons, List.length_cons]
    rw [show p + 1 + l.length = p + (l.length + 1) by omega]

/-- All calls of `write`. -/
theorem writes_in (t : Region) (rest : List Region) (w : Nat) : ∀ (calls : List (Nat × List (BitVec 8))) (s : St) (p : Nat),
    p + (payload calls).length ≤ t.stop → (¬ (p < w ∧ w ≤ p + (payload calls).length)) →
    calls.foldl (fun (y : Option (St × It)) c =>
        y.bind fun z => (write (t :: rest) w c.1 c.2 z).map Prod.snd) (some (s, ⟨0, p⟩))
      = some ({ s with mem := stored s.mem p (payload calls) }, ⟨0, p + (payload calls).length⟩) := by
  intro calls
  induction calls with
  | nil => intro s p _ _; simp [payload, stored_nil]
  | cons c calls ih =>
    obtain ⟨n, d⟩ := c
    intro s p h1 h2
    by_cases hn : n = 1 ∨ n = 2 ∨ n = 4
    · have hp : payload ((n, d) :: calls) = d ++ payload calls := by
        unfold payload
        rw [List.filter_cons_of_pos (by rcases hn with h | h | h <;> simp [h])]
        simp
      rw [hp, List.length_append] at h1 h2
      have hw : write (t :: rest) w n d (s, ⟨0, p⟩)
          = some (true, ({ s with mem := stored s.mem p d }, ⟨0, p + d.length⟩)) := by
        unfold write
        by_cases hd : d = []
        · subst hd
          simp [stored_nil]
        · rw [if_neg hd, if_pos hn, writeBytes_in t rest w d s p (by omega) (by omega)]
          rfl
      rw [List.foldl_cons]
      simp only [Option.bind_some, hw, Option.map_some]
      rw [ih _ _ (by omega) (by omega), hp]
      simp only [stored_append, List.length_append, Nat.add_assoc]
    · have hp : payload ((n, d) :: calls) = payload calls := by
        unfold payload
        rw [List.filter_cons_of_neg]
        simp
        omega
      rw [hp] at h1 h2 ⊢
      have hw : ∃ b, write (t :: rest) w n d (s, ⟨0, p⟩) = some (b, (s, ⟨0, p⟩)) := by
        unfold write
        by_cases hd : d = []
        · exact ⟨true, by rw [if_pos hd]⟩
        · exact ⟨false, by rw [if_neg hd, if_neg hn]⟩
      obtain ⟨b, hw⟩ := hw
      rw [List.foldl_cons]
      simp only [Option.bind_some, hw, Option.map_some]
      exact ih s p h1 h2

theorem readFrom_in (t : Region) (rest : List Region) (w : Nat) (s : St) : ∀ (l : List (BitVec 8)) (p : Nat),
    p + l.length ≤ t.stop → (¬ (p < w ∧ w ≤ p + l.length)) → s.reportEnd = p + l.length →
    (∀ k, k < l.length → s.mem (p + k) = l.getD k 0) →
    readFrom (t :: rest) w s (l.length + 1) ⟨0, p⟩ = some l := by
  intro l
  induction l with
  | nil =>
    intro p _ _ he _
    simp only [List.length_nil, Nat.add_zero] at he
    simp [readFrom, he]
  | cons b l ih =>
    intro p h1 h2 he hm
    simp only [List.length_cons] at h1 h2 he hm
    simp only [List.length_cons]
    unfold readFrom
    rw [if_neg (by simp only [he]; omega), next_in t rest w p (by omega) (by omega)]
    simp only
    rw [ih (p + 1) (by omega) (by omega) (by omega)]
    · have := hm 0 (by omega)
      simp at this
      simp [this]
    · intro k hk
      have := hm (k + 1) (by omega)
      rw [show p + 1 + k = p + (k + 1) by omega, this]
      simp

/-- **C236** A report that fits into the first region of the heap together with
its end marker is found after the reset and read byte by byte, no other memory
is written, and the heap begins behind it. -/
theorem C236_report_partial (t : Region) (rest : List Region) (w w' : Nat)
    (calls : List (Nat × List (BitVec 8))) (s : St)
    (h0 : 0 < t.start + (payload calls).length)
    (hfit : t.start + (payload calls).length + 4 ≤ t.stop)
    (hw : ¬ (t.start < w ∧ w ≤ t.start + (payload calls).length + 4))
    (hw' : ¬ (t.start < w' ∧ w' ≤ t.start + (payload calls).length)) :
    ∃ s1 s2, dump (t :: rest) w calls s = some s1
      ∧ openRead (t :: rest) (reboot s1) = some ((payload calls).length, s2)
      ∧ readAll (t :: rest) w' s2 ((payload calls).length + 1) = some (payload calls)
      ∧ (∀ a, (a < t.start ∨ t.start + (payload calls).length + 4 ≤ a) → s2.mem a = s.mem a)
      ∧ t.start + (payload calls).length + 4 ≤ s2.heapStart
      ∧ s2.heapStart < t.start + (payload calls).length + 8 ∧ s2.heapStart % 4 = 0 := by
  obtain ⟨n, hn⟩ : ∃ n, n = (payload calls).length := ⟨_, rfl⟩
  obtain ⟨l, hl⟩ : ∃ l, l = payload calls := ⟨_, rfl⟩
  rw [← hn] at h0 hfit hw hw' ⊢
  have hln : l.length = n := by rw [hl, hn]
  have hd : dump (t :: rest) w calls s = some { s with markerStart := magicStart, markerEnd := t.start + n, mem := stored s.mem t.start (l ++ magicEnd) } := by
    unfold dump openWrite begin_
    simp only [List.getElem?_cons_zero]
    rw [writes_in t rest w calls _ t.start (by omega) (by omega)]
    simp only [closeWrite]
    rw [writeBytes_in t rest w magicEnd _ _ (by simp [magicEnd]; omega) (by simp [magicEnd]; omega)]
    simp only [Option.map_some, ← hl, hln]
    have := stored_append s.mem t.start l magicEnd
    rw [hln] at this
    rw [this]
  have hmag : ∀ k, k < 4 → stored s.mem t.start (l ++ magicEnd) (t.start + n + k) = magicEnd.getD k 0 := by
    intro k hk
    unfold stored
    rw [if_pos ⟨by omega, by simp [magicEnd, hln]; omega⟩,
      show t.start + n + k - t.start = l.length + k by omega, getD_right]
  have hword : word (stored s.mem t.start (l ++ magicEnd)) (t.start + n) = magicEnd := by
    unfold word
    have a0 := hmag 0 (by omega)
    have a1 := hmag 1 (by omega)
    have a2 := hmag 2 (by omega)
    have a3 := hmag 3 (by omega)
    simp only [Nat.add_zero] at a0
    rw [a0, a1, a2, a3]
    rfl
  refine ⟨_, { s with markerStart := magicStart, markerEnd := t.start + n, mem := stored s.mem t.start (l ++ magicEnd), reportEnd := t.start + n, heapStart := (t.start + n + 4 + 3) / 4 * 4 }, hd, ?_, ?_, ?_, ?_, ?_, ?_⟩
  · unfold openRead reboot
    simp only [List.getElem?_cons_zero]
    rw [if_pos (⟨trivial, by omega⟩ : True ∧ t.start + n ≠ 0)]
    unfold findReport
    simp only [hword, if_true]
    rw [if_pos ⟨by omega, by omega⟩]
    simp
  · unfold readAll begin_
    simp only [List.getElem?_cons_zero]
    rw [← hl]
    have := readFrom_in t rest w' { s with markerStart := magicStart, markerEnd := t.start + n, mem := stored s.mem t.start (l ++ magicEnd), reportEnd := t.start + n, heapStart := (t.start + n + 4 + 3) / 4 * 4 }
      l t.start (by omega) (by omega) (by simp [hln]) (by
        intro k hk
        show stored s.mem t.start (l ++ magicEnd) (t.start + k) = _
        unfold stored
        rw [if_pos ⟨by omega, by simp; omega⟩, Nat.add_sub_cancel_left, getD_left _ _ _ (by omega)])
    rw [hln] at this
    exact this
  · intro a ha
    show stored s.mem t.start (l ++ magicEnd) a = _
    unfold stored
    rw [if_neg]
    simp [magicEnd, hln]
    omega
  · show _ ≤ (t.start + n + 4 + 3) / 4 * 4
    omega
  · show (t.start + n + 4 + 3) / 4 * 4 < _
    omega
  · show (t.start + n + 4 + 3) / 4 * 4 % 4 = 0
    omega

/-- A memory and markers without a report. -/
def blank : St := ⟨fun _ => 0, 7, 9, 0, 0⟩

/-- A report of three calls; elements of three bytes are left out. -/
def sample : List (Nat × List (BitVec 8)) := [(1, [1, 2]), (3, [9, 9, 9]), (4, [3, 4, 5, 6]), (2, [])]

example : payload sample = [1, 2, 3, 4, 5, 6] := by decide
example : ((dump [⟨1, 100, 120⟩] 0 sample blank).bind fun s => openRead [⟨1, 100, 120⟩] (reboot s)).map (fun r => (r.1, r.2.heapStart))
    = some (6, 112) := by decide
example : ((dump [⟨1, 100, 120⟩] 0 sample blank).bind fun s =>
    (openRead [⟨1, 100, 120⟩] (reboot s)).bind fun r => readAll [⟨1, 100, 120⟩] 0 r.2 7) = some [1, 2, 3, 4, 5, 6] := by decide

/-- **C236** Without the marker, or after it was cleared, there is no report,
and the markers are cleared. -/
theorem C236_none (t : Region) (rest : List Region) (w n : Nat) (s : St) (h : s.markerStart ≠ magicStart ∨ s.markerEnd = 0) :
    ∃ s', openRead (t :: rest) s = some (0, s') ∧ s'.markerStart = 0 ∧ s'.heapStart = s.heapStart
      ∧ s'.mem = s.mem ∧ readAll (t :: rest) w s' (n + 1) = some [] := by
  refine ⟨closeRead { s with reportEnd := t.start }, ?_, rfl, rfl, rfl, ?_⟩
  · unfold openRead
    simp only [List.getElem?_cons_zero]
    rw [if_neg]
    rintro ⟨a, b⟩
    rcases h with h | h
    · exact h a
    · exact b h
  · unfold readAll begin_ readFrom
    simp [closeRead]

/-- **C236** So clearing a report works: after it and a reset there is none. -/
theorem C236_clear (t : Region) (rest : List Region) (w n : Nat) (s : St) :
    ∃ s', openRead (t :: rest) (reboot (closeRead s)) = some (0, s') ∧ readAll (t :: rest) w s' (n + 1) = some [] := by
  obtain ⟨s', a, _, _, _, b⟩ := C236_none t rest w n (reboot (closeRead s)) (Or.inr rfl)
  exact ⟨s', a, b⟩

/-- The bytes 1 to `n`. -/
def count (n : Nat) : List (BitVec 8) := (List.range n).map fun k => BitVec.ofNat 8 (k + 1)

/-- **C236** A report that does not fit into the first region is written one
byte beyond it, and its size is one byte short for every region. -/
theorem C236_beyond_counterexample :
    ((dump [⟨1, 100, 104⟩, ⟨1, 200, 300⟩] 0 [(1, count 6)] blank).map fun s => s.mem 104) = some 5
    ∧ ((dump [⟨1, 100, 104⟩, ⟨1, 200, 300⟩] 0 [(1, count 6)] blank).bind fun s =>
        (openRead [⟨1, 100, 104⟩, ⟨1, 200, 300⟩] (reboot s)).map Prod.fst) = some 5 := by
  decide +kernel

/-- **C236** If the next region begins where the first one ends, a byte of the
report is overwritten: 5 is lost and 6 comes twice. -/
theorem C236_adjacent_counterexample :
    ((dump [⟨1, 100, 104⟩, ⟨1, 104, 300⟩] 0 [(1, count 8)] blank).bind fun s =>
      (openRead [⟨1, 100, 104⟩, ⟨1, 104, 300⟩] (reboot s)).bind fun r =>
        readAll [⟨1, 100, 104⟩, ⟨1, 104, 300⟩] 0 r.2 99) = some [1, 2, 3, 4, 6, 6, 7, 8] := by
  decide +kernel

/-- **C236** If the end marker does not fit into the region, the report is
lost. -/
theorem C236_lost_counterexample :
    ((dump [⟨1, 100, 110⟩, ⟨1, 200, 300⟩] 0 [(1, count 8)] blank).bind fun s =>
      (openRead [⟨1, 100, 110⟩, ⟨1, 200, 300⟩] (reboot s)).map Prod.fst) = some 0 := by
  decide +kernel

/-- **C236** What does not fit into the heap is not discarded: the iterator goes
on behind the table. -/
theorem C236_full_counterexample :
    dump [⟨1, 100, 110⟩] 0 [(1, count 20)] blank = none := by
  rfl

/-- **C236** The word at the place `g_crashCatcherStack` decides where the
report is continued; if it is a pointer into the heap at the time of the fault
and something else after the reset, other bytes are read (here 6 and 7 are
missing), and too few of them (openRead says 7 + 100). -/
theorem C236_stack_counterexample :
    let tbl : List Region := [⟨1, 100, 200⟩, ⟨1, 300, 400⟩]
    ((dump tbl 105 [(1, count 7)] blank).bind fun s => (openRead tbl (reboot s)).map Prod.fst) = some 102
    ∧ ((dump tbl 105 [(1, count 7)] blank).bind fun s => (openRead tbl (reboot s)).bind fun r =>
        (readAll tbl 0 r.2 999).map fun l => l.take 7) = some [1, 2, 3, 4, 5, 0, 0] := by
  decide +kernel

/-! ## The iteration -/

theorem first_spec (hs : Nat) : ∀ (l : List Region) (k i off : Nat), first hs l k = some (i, off) →
    ∃ j t, i = k + j ∧ l[j]? = some t ∧ t.start + off = hs ∧ hs < t.stop
      ∧ ∀ j' t', j' < j → l[j']? = some t' → ¬ (t'.start ≤ hs ∧ hs < t'.stop) := by
  intro l
  induction l with
  | nil => intro k i off h; simp [first] at h
  | cons t l ih =>
    intro k i off h
    unfold first at h
    split at h
    · rename_i hc
      simp only [Option.some.injEq, Prod.mk.injEq] at h
      refine ⟨0, t, by omega, rfl, by omega, hc.2, ?_⟩
      intro j' t' hj; omega
    · rename_i hc
      obtain ⟨j, t', a, b, c, d, f⟩ := ih (k + 1) i off h
      refine ⟨j + 1, t', by omega, by simpa using b, c, d, ?_⟩
      intro j' t'' hj ht
      cases j' with
      | zero =>
        simp only [List.getElem?_cons_zero, Option.some.injEq] at ht
        rw [← ht]; exact hc
      | succ j' => exact f j' t'' (by omega) (by simpa using ht)

theorem first_none (hs : Nat) : ∀ (l : List Region) (k : Nat), first hs l k = none →
    ∀ t ∈ l, ¬ (t.start ≤ hs ∧ hs < t.stop) := by
  intro l
  induction l with
  | nil => intro k _ t ht; simp at ht
  | cons t l ih =>
    intro k h t' ht
    unfold first at h
    split at h
    · cases h
    · rename_i hc
      rcases List.mem_cons.1 ht with e | e
      · rw [e]; exact hc
      · exact ih _ h t' e

/-- **C237** Without a report the iteration yields every region with its size. -/
theorem C237_all (tbl : List Region) (hok : ∀ t ∈ tbl, t.start ≤ t.stop) :
    entries tbl 0 = tbl.map fun t => ⟨t.traits, t.start, t.stop, t.stop - t.start⟩ := by
  unfold entries
  simp only [ne_eq, not_true_eq_false, if_false]
  apply List.map_congr_left
  intro t ht
  unfold diff
  rw [if_pos (hok t ht)]

/-- **C237** With a report whose end `hs` lies in some region, the first element
is the rest of this region, and no element contains memory that is not heap or
that lies before `hs` in this region, provided that every later region is not
shorter than the report. -/
theorem C237_report_partial (tbl : List Region) (hs : Nat) (h0 : hs ≠ 0)
    (k : Nat) (t : Region) (hk : tbl[k]? = some t) (hin : t.start ≤ hs ∧ hs < t.stop)
    (hfirst : ∀ j t', j < k → tbl[j]? = some t' → ¬ (t'.start ≤ hs ∧ hs < t'.stop))
    (hlong : ∀ j t', k ≤ j → tbl[j]? = some t' → t'.start + (hs - t.start) ≤ t'.stop) :
    ∃ l, entries tbl hs = ⟨t.traits, hs, t.stop, t.stop - hs⟩ :: l
      ∧ ∀ e ∈ l, ∃ j t', k < j ∧ tbl[j]? = some t' ∧ e.traits = t'.traits ∧ e.stop = t'.stop
          ∧ t'.start ≤ e.start ∧ e.start + e.size = t'.stop := by
  have hf : first hs tbl 0 = some (k, hs - t.start) := by
    cases hc : first hs tbl 0 with
    | none =>
      exact absurd hin (first_none hs tbl 0 hc t (List.mem_of_getElem? hk))
    | some x =>
      obtain ⟨i, off⟩ := x
      obtain ⟨j, t', a, b, c, d, f⟩ := first_spec hs tbl 0 i off hc
      have hjk : j = k := by
        rcases Nat.lt_trichotomy j k with h | h | h
        · exact absurd ⟨by omega, d⟩ (hfirst j t' h b)
        · exact h
        · exact absurd hin (f k t h hk)
      subst hjk
      rw [hk] at b
      cases b
      simp only [Option.some.injEq, Prod.mk.injEq]
      omega
  unfold entries
  rw [if_pos h0, hf]
  simp only
  have hlt : k < tbl.length := by
    rcases Nat.lt_or_ge k tbl.length with h | h
    · exact h
    · rw [List.getElem?_eq_none h] at hk; cases hk
  rw [List.drop_eq_getElem_cons hlt]
  have hkt : tbl[k] = t := by
    rw [List.getElem?_eq_getElem hlt] at hk
    exact Option.some.inj hk
  rw [hkt, List.map_cons]
  refine ⟨(tbl.drop (k + 1)).map fun t' => ⟨t'.traits, t'.start + (hs - t.start), t'.stop, diff t'.stop (t'.start + (hs - t.start))⟩, ?_, ?_⟩
  rotate_left
  · intro e he
    rw [List.mem_map] at he
    obtain ⟨t', ht', rfl⟩ := he
    obtain ⟨m, hm⟩ := List.mem_iff_getElem?.1 ht'
    rw [List.getElem?_drop] at hm
    refine ⟨k + 1 + m, t', by omega, hm, rfl, rfl, by simp, ?_⟩
    have := hlong (k + 1 + m) t' (by omega) hm
    simp only [diff]
    rw [if_pos this]
    omega
  · rw [show t.start + (hs - t.start) = hs by omega]
    simp only [diff]
    rw [if_pos (by omega)]

example : entries [⟨1, 100, 200⟩, ⟨1, 300, 400⟩] 120 = [⟨1, 120, 200, 80⟩, ⟨1, 320, 400, 80⟩] := by decide

/-- **C237** The offset of the report is applied to the other regions as well:
memory is lost, and of a region that is shorter than the report the start lies
behind its end, with a size of almost 4 GiB. -/
theorem C237_offset_counterexample :
    entries [⟨1, 0x100, 0x900⟩, ⟨1, 0x1000, 0x1400⟩] 0x800
      = [⟨1, 0x800, 0x900, 0x100⟩, ⟨1, 0x1700, 0x1400, 0xFFFFFD00⟩] := by decide

/-- **C237** And `find_largest` takes exactly this one. -/
theorem C237_largest_counterexample :
    findLargest 1 (entries [⟨1, 0x100, 0x900⟩, ⟨1, 0x1000, 0x1400⟩] 0x800) = (true, 0x1700, 0x1400) := by decide

/-- **C237** If a report fills the region to its end, the whole heap is handed
out, the report with it. -/
theorem C237_filled_counterexample :
    ((dump [⟨1, 100, 112⟩] 0 [(1, count 8)] blank).bind fun s =>
      (openRead [⟨1, 100, 112⟩] (reboot s)).map fun r => (r.1, entries [⟨1, 100, 112⟩] r.2.heapStart))
      = some (8, [⟨1, 100, 112, 12⟩]) := by
  decide +kernel

/-! ## The largest region -/

/-- A region that is asked for: the code accepts every region with at least one
of the traits. -/
def Match (mask : Nat) (e : Entry) : Prop := e.traits &&& mask ≠ 0

/-- An element as the iteration should yield it. -/
def Entry.Ok (e : Entry) : Prop := e.start ≤ e.stop ∧ e.size = e.stop - e.start

/-- Address `a` belongs to a matching region of the list. -/
def Covered (mask : Nat) (l : List Entry) (a : Nat) : Prop :=
  ∃ e ∈ l, Match mask e ∧ e.start ≤ a ∧ a < e.stop

/-- What the loop knows after the elements `l`. -/
structure Inv (mask : Nat) (l : List Entry) (x : Nat × Nat × Nat) : Prop where
  le : x.1 ≤ x.2.1
  size : x.2.2 = x.2.1 - x.1
  cov : ∀ a, x.1 ≤ a → a < x.2.1 → Covered mask l a
  max : ∀ e ∈ l, Match mask e → e.size ≤ x.2.2

theorem inv_step (mask : Nat) (l : List Entry) (x : Nat × Nat × Nat) (e : Entry) (he : Entry.Ok e)
    (h : Inv mask l x) : Inv mask (l ++ [e]) (pick mask x e) := by
  obtain ⟨h1, h2, h3, h4⟩ := h
  obtain ⟨g1, g2⟩ := he
  have mono : ∀ a, Covered mask l a → Covered mask (l ++ [e]) a := by
    rintro a ⟨e', m, b⟩
    exact ⟨e', by simp [m], b⟩
  unfold pick
  split
  · rename_i hm
    have new : ∀ a, e.start ≤ a → a < e.stop → Covered mask (l ++ [e]) a :=
      fun a p q => ⟨e, by simp, hm, p, q⟩
    split
    · rename_i heq
      refine ⟨?_, ?_, ?_, ?_⟩
      · show x.1 ≤ e.stop; omega
      · show x.2.2 + e.size = e.stop - x.1; omega
      · intro a p q
        change x.1 ≤ a at p
        change a < e.stop at q
        rcases Nat.lt_or_ge a x.2.1 with h | h
        · exact mono a (h3 a p h)
        · exact new a (by omega) q
      · intro e' m hm'
        show e'.size ≤ x.2.2 + e.size
        rcases List.mem_append.1 m with m | m
        · have := h4 e' m hm'; omega
        · rw [List.mem_singleton.1 m]; omega
    · split
      · rename_i hge
        refine ⟨g1, g2, new, ?_⟩
        intro e' m hm'
        show e'.size ≤ e.size
        rcases List.mem_append.1 m with m | m
        · have := h4 e' m hm'; omega
        · rw [List.mem_singleton.1 m]; omega
      · rename_i hge
        refine ⟨h1, h2, fun a p q => mono a (h3 a p q), ?_⟩
        intro e' m hm'
        rcases List.mem_append.1 m with m | m
        · exact h4 e' m hm'
        · rw [List.mem_singleton.1 m]; omega
  · rename_i hm
    refine ⟨h1, h2, fun a p q => mono a (h3 a p q), ?_⟩
    intro e' m hm'
    rcases List.mem_append.1 m with m | m
    · exact h4 e' m hm'
    · rw [List.mem_singleton.1 m] at hm'
      exact absurd hm' hm

theorem inv_all (mask : Nat) : ∀ (l' l : List Entry) (x : Nat × Nat × Nat), (∀ e ∈ l', Entry.Ok e) → Inv mask l x →
    Inv mask (l ++ l') (l'.foldl (pick mask) x) := by
  intro l'
  induction l' with
  | nil => intro l x _ h; simpa using h
  | cons e l' ih =>
    intro l x hok h
    rw [List.foldl_cons, show l ++ e :: l' = (l ++ [e]) ++ l' by simp]
    exact ih _ _ (fun e' he' => hok e' (by simp [he'])) (inv_step mask l x e (hok e (by simp)) h)

theorem inv_init (mask : Nat) : Inv mask [] (0, 0, 0) :=
  ⟨Nat.le_refl _, rfl, fun a _ h => absurd h (by simp), fun e he => by simp at he⟩

/-- **C238** The memory between `*start` and `*end` belongs to the heap, to
regions with one of the traits, and it is not smaller than any of these
regions. -/
theorem C238_sound_partial (mask : Nat) (l : List Entry) (hok : ∀ e ∈ l, Entry.Ok e) :
    (∀ a, (findLargest mask l).2.1 ≤ a → a < (findLargest mask l).2.2 → Covered mask l a)
    ∧ (∀ e ∈ l, Match mask e → e.size ≤ (findLargest mask l).2.2 - (findLargest mask l).2.1)
    ∧ ((findLargest mask l).1 = true ↔ (findLargest mask l).2.1 ≠ 0) := by
  have h := inv_all mask l [] (0, 0, 0) hok (inv_init mask)
  rw [List.nil_append] at h
  unfold findLargest
  refine ⟨h.cov, ?_, by simp⟩
  intro e he hm
  have := h.max e he hm
  rw [h.size] at this
  exact this

/-- No matching region begins where another one ends. -/
def Separated (mask : Nat) (l : List Entry) : Prop :=
  ∀ e ∈ l, ∀ e' ∈ l, Match mask e → Match mask e' → e ≠ e' → e.stop < e'.start ∨ e'.stop < e.start

/-- **C238** If no two regions touch each other, it is the largest continuous
section of all. -/
theorem C238_largest_partial (mask : Nat) (l : List Entry) (hok : ∀ e ∈ l, Entry.Ok e)
    (hs : Separated mask l) (a b : Nat) (hc : ∀ p, a ≤ p → p < b → Covered mask l p) :
    b - a ≤ (findLargest mask l).2.2 - (findLargest mask l).2.1 := by
  rcases Nat.lt_or_ge a b with hab | hab
  · obtain ⟨e, m, hm, p, q⟩ := hc a (Nat.le_refl _) hab
    have hmax := (C238_sound_partial mask l hok).2.1 e m hm
    rw [(hok e m).2] at hmax
    rcases Nat.lt_or_ge e.stop b with h | h
    · obtain ⟨e', m', hm', p', q'⟩ := hc e.stop (by omega) h
      have hne : e ≠ e' := by
        rintro rfl
        omega
      rcases hs e m e' m' hm hm' hne with h1 | h1 <;> omega
    · omega
  · omega

example : findLargest 1 [⟨1, 100, 150, 50⟩, ⟨2, 150, 900, 750⟩, ⟨3, 1000, 1080, 80⟩, ⟨1, 1080, 1090, 10⟩, ⟨1, 2000, 2060, 60⟩]
    = (true, 1000, 1090) := by decide
example : Separated 1 [⟨1, 100, 150, 50⟩, ⟨2, 150, 900, 750⟩, ⟨3, 1000, 1080, 80⟩] := by
  unfold Separated Match; decide

/-- **C238** Two regions that together are larger than the one found before are
not taken into account. -/
theorem C238_touching_counterexample :
    findLargest 1 [⟨1, 100, 130, 30⟩, ⟨1, 200, 220, 20⟩, ⟨1, 220, 240, 20⟩] = (true, 100, 130)
    ∧ ∀ p, 200 ≤ p → p < 240 → Covered 1 [⟨1, 100, 130, 30⟩, ⟨1, 200, 220, 20⟩, ⟨1, 220, 240, 20⟩] p := by
  refine ⟨by decide, ?_⟩
  intro p h1 h2
  rcases Nat.lt_or_ge p 220 with h | h
  · exact ⟨⟨1, 200, 220, 20⟩, by simp, by unfold Match; decide, h1, h⟩
  · exact ⟨⟨1, 220, 240, 20⟩, by simp, by unfold Match; decide, h, h2⟩

/-- **C238** A region at address 0 (ITCM) is found, but the result is false. -/
theorem C238_null_counterexample : findLargest 4 [⟨4, 0, 0x4000, 0x4000⟩] = (false, 0, 0x4000) := by decide

/-- **C238** "At least the selected traits" is not meant: memory that is not
DMA-able (only S-Bus, 1) is returned for `MemoryDMA` (S-Bus and DMA, 9), though
there is some that is. -/
theorem C238_traits_counterexample :
    findLargest 9 [⟨9, 0x20000000, 0x20000100, 0x100⟩, ⟨1, 0x20010000, 0x20010200, 0x200⟩] = (true, 0x20010000, 0x20010200) := by
  decide

end Props.HeapTable
