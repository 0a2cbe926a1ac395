import Verif.Model.Ft245

set_option autoImplicit false

namespace Props.Ft245
open Model.Ft245

/-- What a correct result is: a beginning of the polls was used, its bytes are in the buffer in order, not more than `n`;
either the buffer is full, with the last poll, or the last twenty polls found nothing. -/
def Correct (n : Nat) (polls : List (Option (BitVec 8))) (r : List (BitVec 8) × List (Option (BitVec 8))) : Prop :=
  ∃ used, polls = used ++ r.2 ∧ r.1 = used.filterMap id ∧ r.1.length ≤ n ∧
    ((r.1.length = n ∧ ∃ b, used.getLast? = some (some b)) ∨ (r.1.length < n ∧ ∃ u, used = u ++ List.replicate 20 none))

theorem loop_correct (n : Nat) (hn : 0 < n) (h256 : n < 256) : ∀ (ps used : List (Option (BitVec 8))) (u : List (Option (BitVec 8)))
    (delay : Nat) (acc : List (BitVec 8)), 0 < delay → delay ≤ 20 → used = u ++ List.replicate (20 - delay) none →
    acc = used.filterMap id → acc.length < n →
    (∀ r, readLoop n ps delay acc.length acc = some r → Correct n (used ++ ps) r) ∧
    ((∃ a c, ps = a ++ List.replicate 20 none ++ c) → ∃ r, readLoop n ps delay acc.length acc = some r) := by
  intro ps
  induction ps with
  | nil =>
    intro used u delay acc h0 h20 hu ha hl
    refine ⟨by intro r h; simp [readLoop] at h, ?_⟩
    rintro ⟨a, c, e⟩
    have : ([] : List (Option (BitVec 8))).length = (a ++ List.replicate 20 none ++ c).length := by rw [e]
    simp at this
  | cons p ps ih =>
    intro used u delay acc h0 h20 hu ha hl
    have tail : ∀ x : Option (BitVec 8), (∃ a c, x :: ps = a ++ List.replicate 20 none ++ c) →
        (∃ a c, ps = a ++ List.replicate 20 none ++ c) ∨ (∃ c, x = none ∧ ps = List.replicate 19 none ++ c) := by
      rintro x ⟨a, c, e⟩
      cases a with
      | nil =>
        right
        rw [List.nil_append, show (20 : Nat) = 19 + 1 from rfl, List.replicate_succ, List.cons_append] at e
        injection e with e1 e2
        exact ⟨c, e1, e2⟩
      | cons y a =>
        left
        rw [List.cons_append, List.cons_append] at e
        injection e with e1 e2
        exact ⟨a, c, e2⟩
    cases p with
    | none =>
      have hu' : used ++ [none] = u ++ List.replicate (20 - (delay - 1)) none := by
        rw [hu, show 20 - (delay - 1) = (20 - delay) + 1 by omega, List.replicate_succ', List.append_assoc]
      have ha' : acc = (used ++ [none]).filterMap id := by rw [List.filterMap_append, ha]; simp
      by_cases d : delay - 1 = 0
      · have d1 : delay = 1 := by omega
        refine ⟨?_, ?_⟩
        · intro r h
          simp only [readLoop, d, if_true] at h
          injection h with h
          subst h
          refine ⟨used ++ [none], by simp, ha', Nat.le_of_lt hl, Or.inr ⟨hl, u, ?_⟩⟩
          rw [hu', d1]
        · intro _; exact ⟨(acc, ps), by simp [readLoop, d]⟩
      · obtain ⟨x, y⟩ := ih (used ++ [none]) u (delay - 1) acc (by omega) (by omega) hu' ha' hl
        refine ⟨?_, ?_⟩
        · intro r h
          simp only [readLoop, d, if_false] at h
          have := x r h
          rwa [List.append_assoc] at this
        · intro e
          simp only [readLoop, d, if_false]
          rcases tail none e with t | ⟨c, _, t⟩
          · exact y t
          · -- the polls that are left suffice
            have key : ∀ (k d : Nat) (c : List (Option (BitVec 8))), 0 < d → d ≤ k →
                ∃ r, readLoop n (List.replicate k none ++ c) d acc.length acc = some r := by
              intro k
              induction k with
              | zero => intro d c h1 h2; omega
              | succ k ihk =>
                intro d c h1 h2
                rw [List.replicate_succ, List.cons_append]
                by_cases z : d - 1 = 0
                · exact ⟨(acc, List.replicate k none ++ c), by simp only [readLoop]; rw [if_pos z]⟩
                · simp only [readLoop, z, if_false]
                  exact ihk (d - 1) c (by omega) (by omega)
            rw [t]
            exact key 19 (delay - 1) c (by omega) (by omega)
    | some b =>
      have ha' : acc ++ [b] = (used ++ [some b]).filterMap id := by rw [List.filterMap_append, ha]; simp
      have m : (acc.length + 1) % 256 = acc.length + 1 := Nat.mod_eq_of_lt (by omega)
      have no : ¬ n ≤ acc.length := by omega
      by_cases e : acc.length + 1 = n
      · have step : readLoop n (some b :: ps) delay acc.length acc = some (acc ++ [b], ps) := by
          simp only [readLoop]
          rw [if_neg no, m, if_pos e]
        rw [step]
        refine ⟨?_, fun _ => ⟨_, rfl⟩⟩
        intro r h
        injection h with h
        subst h
        refine ⟨used ++ [some b], by simp, ha', by simp; omega, Or.inl ⟨by simp; omega, b, by simp⟩⟩
      · have step : readLoop n (some b :: ps) delay acc.length acc = readLoop n ps 20 (acc.length + 1) (acc ++ [b]) := by
          simp only [readLoop]
          rw [if_neg no, m, if_neg e]
        rw [step]
        obtain ⟨x, y⟩ := ih (used ++ [some b]) (used ++ [some b]) 20 (acc ++ [b]) (by omega) (by omega) (by simp) ha' (by simp; omega)
        rw [List.length_append, List.length_singleton] at x y
        refine ⟨?_, ?_⟩
        · intro r h
          have := x r h
          rwa [List.append_assoc] at this
        · intro ex
          rcases tail (some b) ex with t | ⟨c, t, _⟩
          · exact y t
          · exact absurd t (by simp)

/-- C351: for all lengths from 1 on and all bytes at all times: `read()` puts the bytes received into the buffer in order, never
more than its length, and returns when the buffer is full or after twenty polls without a byte — and no later. -/
theorem C351_read_partial (n : Nat) (polls : List (Option (BitVec 8))) (hn : 0 < n) (h256 : n < 256) :
    (∀ r, read n polls = some r → Correct n polls r) ∧
    ((∃ a c, polls = a ++ List.replicate 20 none ++ c) → ∃ r, read n polls = some r) := by
  have := loop_correct n hn h256 polls [] [] 20 [] (by omega) (by omega) (by simp) (by simp) hn
  exact this

/-- Case: two bytes, a short break, and then nothing. -/
example : (read 5 ([some 1, none, some 2] ++ List.replicate 20 none)) = some ([1, 2], []) ∧
    read 2 [some 1, none, some 2, some 3] = some ([1, 2], [some 3]) := by decide +kernel

/-- C351 (refuted): the length is compared after a byte was stored: with a length of zero the first byte is written behind the
buffer (and 255 more, since the counter has eight bits). -/
theorem C351_zero_counterexample : read 0 (some 1 :: List.replicate 20 none) = none := by decide +kernel

/-! ### Writing -/

theorem wait_done (n : Nat) : ∀ c : Chip, c.busy ≤ n → wait n c = { c with busy := 0 } := by
  induction n with
  | zero =>
    intro c h
    have : c.busy = 0 := by omega
    cases c
    simp_all [wait]
  | succ n ih =>
    intro c h
    unfold wait
    by_cases z : c.busy = 0
    · rw [if_pos z]; cases c; simp_all
    · rw [if_neg z, ih _ (by show c.busy - 1 ≤ n; omega)]

theorem writeLoop_fifo (bs : List (BitVec 8)) : ∀ c : Chip, c.output = true →
    (writeLoop bs c).fifo = c.fifo ++ bs ∧ (writeLoop bs c).lost = c.lost := by
  induction bs with
  | nil => intro c _; simp [writeLoop]
  | cons b bs ih =>
    intro c ho
    have key : wrReset (wait c.busy { c with wr := true, port := b }) =
        { c with wr := false, port := b, fifo := c.fifo ++ [b], busy := c.waits.headD 0, waits := c.waits.tail } := by
      rw [wait_done c.busy { c with wr := true, port := b } (Nat.le_refl _)]
      simp [wrReset, ho]
    have : writeLoop (b :: bs) c = writeLoop bs (wrReset (wait c.busy { c with wr := true, port := b })) := rfl
    rw [this, key]
    obtain ⟨x, y⟩ := ih { c with wr := false, port := b, fifo := c.fifo ++ [b], busy := c.waits.headD 0, waits := c.waits.tail } ho
    rw [x, y]
    simp

/-- C352: for all data and however long the chip is busy after each byte: both forms of `write()` put exactly the bytes into
the FIFO, in order, none while the chip is busy, and the port is an input afterwards. -/
theorem C352_write (c : Chip) (b : BitVec 8) (bs : List (BitVec 8)) :
    (writeByte c b).fifo = c.fifo ++ [b] ∧ (writeByte c b).lost = c.lost ∧ (writeByte c b).output = false ∧
    (write c bs).fifo = c.fifo ++ bs ∧ (write c bs).lost = c.lost ∧ (write c bs).output = false := by
  have w : writeByte c b = { c with wr := false, port := b, output := false, fifo := c.fifo ++ [b], busy := c.waits.headD 0, waits := c.waits.tail } := by
    unfold writeByte
    simp only [wait_done c.busy c (Nat.le_refl _)]
    simp [wrReset]
  obtain ⟨x, y⟩ := writeLoop_fifo bs { c with output := true } rfl
  refine ⟨by rw [w], by rw [w], by rw [w], x, y, rfl⟩

/-- Case: the chip is busy for three polls, then for five after the first byte. -/
example : (write ⟨[], 3, [5, 0], false, 0, false, false⟩ [7, 8]).fifo = [7, 8] := by decide +kernel

end Props.Ft245
