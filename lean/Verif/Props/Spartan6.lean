import Verif.Model.Spartan6
/-!
C371, C372: configuring a Spartan 6.
-/

set_option autoImplicit false

namespace Props.Spartan6
open Model.Spartan6

/-- `n` words of the memory from word `w` on. -/
def words (mem : Nat → Byte) (w n : Nat) : List Byte := (List.range (2 * n)).map fun i => mem (2 * w + i)

theorem words_length (mem : Nat → Byte) (w n : Nat) : (words mem w n).length = 2 * n := by simp [words]

theorem words_append (mem : Nat → Byte) (w a b : Nat) : words mem w a ++ words mem (w + a) b = words mem w (a + b) := by
  apply List.ext_getElem
  · simp [words]; omega
  · intro i h1 h2
    simp only [words, List.getElem_append, List.length_map, List.length_range, List.getElem_map, List.getElem_range]
    split
    · rfl
    · congr 1; omega

theorem words_one (mem : Nat → Byte) (w : Nat) : [mem (2 * w), mem (2 * w + 1)] = words mem w 1 := rfl

theorem wait_iff (f : Nat → Bool) (left : Nat) : ∀ i, i + left = 1002 → (wait f left i = true ↔ ∃ j, i ≤ j ∧ j ≤ 1001 ∧ f j = true) := by
  induction left with
  | zero =>
    intro i h
    simp only [wait, Bool.false_eq_true, false_iff]
    rintro ⟨j, h1, h2, _⟩; omega
  | succ n ih =>
    intro i h
    rw [wait]
    by_cases c : f i = true
    · rw [if_pos c]; exact ⟨fun _ => ⟨i, by omega, by omega, c⟩, fun _ => rfl⟩
    · rw [if_neg c]
      by_cases d : i > 1000
      · rw [if_pos d]
        constructor
        · intro x; exact absurd x (by decide)
        · rintro ⟨j, h1, h2, h3⟩
          have : j = i := by omega
          subst this; exact absurd h3 c
      · rw [if_neg d, ih (i + 1) (by omega)]
        constructor
        · rintro ⟨j, h1, h2, h3⟩; exact ⟨j, by omega, h2, h3⟩
        · rintro ⟨j, h1, h2, h3⟩
          refine ⟨j, ?_, h2, h3⟩
          have : j ≠ i := by intro q; subst q; exact c h3
          omega

/-- A page ends with the word after which DONE is high, or with its last word. -/
theorem writePage_spec (e : Env) (n : Nat) : ∀ (w : Nat) (st : PageState),
    (∃ j, j < n ∧ e.doneAfter (w + j) = true ∧ (∀ i, i < j → e.doneAfter (w + i) = false) ∧ writePage e n w st = (words e.mem w (j + 1), .done))
    ∨ ((∀ i, i < n → e.doneAfter (w + i) = false) ∧ ∃ st', writePage e n w st = (words e.mem w n, st')
      ∧ ((∀ i, i < n → e.initAfter (w + i) = true) → st' = st) ∧ (¬ (∀ i, i < n → e.initAfter (w + i) = true) → st' = .crcError)) := by
  induction n with
  | zero =>
    intro w st
    right
    exact ⟨fun i h => absurd h (by omega), st, rfl, fun _ => rfl, fun h => absurd (fun i hi => absurd hi (by omega)) h⟩
  | succ n ih =>
    intro w st
    cases hd : e.doneAfter w
    · have hu : ∀ st, writePage e (n + 1) w st = (words e.mem w 1 ++ (writePage e n (w + 1) (if e.initAfter w then st else .crcError)).1,
          (writePage e n (w + 1) (if e.initAfter w then st else .crcError)).2) := by
        intro st; rw [writePage]; simp only [hd, words_one]; rfl
      rcases ih (w + 1) (if e.initAfter w then st else .crcError) with ⟨j, h1, h2, h3, h4⟩ | ⟨h1, st', h2, h3, h4⟩
      · left
        have e1 : w + (j + 1) = w + 1 + j := by omega
        refine ⟨j + 1, by omega, by rw [e1]; exact h2, ?_, ?_⟩
        · intro i hi
          cases i with
          | zero => exact hd
          | succ i =>
            have e2 : w + (i + 1) = w + 1 + i := by omega
            rw [e2]; exact h3 i (by omega)
        · rw [hu, h4]
          simp only
          rw [words_append, Nat.add_comm 1 (j + 1)]
      · right
        refine ⟨?_, st', ?_, ?_, ?_⟩
        · intro i hi
          cases i with
          | zero => exact hd
          | succ i =>
            have e2 : w + (i + 1) = w + 1 + i := by omega
            rw [e2]; exact h1 i (by omega)
        · rw [hu, h2]
          simp only
          rw [words_append, Nat.add_comm 1 n]
        · intro h
          have h0 : e.initAfter w = true := h 0 (by omega)
          rw [h0] at h3
          apply h3
          intro i hi
          have e2 : w + 1 + i = w + (i + 1) := by omega
          rw [e2]; exact h (i + 1) (by omega)
        · intro h
          by_cases h' : ∀ i, i < n → e.initAfter (w + 1 + i) = true
          · have h0 : e.initAfter w = false := by
              cases h0 : e.initAfter w
              · rfl
              · exfalso; apply h
                intro i hi
                cases i with
                | zero => exact h0
                | succ i =>
                  have e2 : w + (i + 1) = w + 1 + i := by omega
                  rw [e2]; exact h' i (by omega)
            rw [h0] at h3
            exact h3 h'
          · exact h4 h'
    · left
      refine ⟨0, by omega, hd, fun i hi => absurd hi (by omega), ?_⟩
      rw [writePage]
      simp only [hd, if_true, words_one]

/-- DONE is first high after word `k`, and INIT_B was high in all pages before. -/
def good (e : Env) (from' k : Nat) : Prop :=
  from' ≤ k ∧ e.doneAfter k = true ∧ (∀ j, from' ≤ j → j < k → e.doneAfter j = false)
  ∧ ∀ j, from' ≤ j → j < 128 * (k / 128) → e.initAfter j = true

theorem pages_spec (e : Env) (left : Nat) : ∀ p,
    (∃ k, k < 128 * (p + left) ∧ good e (128 * p) k ∧ pages e left p = (words e.mem (128 * p) (k + 1 - 128 * p), .done))
    ∨ ((¬ ∃ k, k < 128 * (p + left) ∧ good e (128 * p) k) ∧ (pages e left p).2 ≠ .done ∧ ∃ n, (pages e left p).1 = words e.mem (128 * p) n) := by
  induction left with
  | zero =>
    intro p
    right
    refine ⟨?_, by rw [pages]; decide, 0, rfl⟩
    rintro ⟨k, h, hg⟩
    have := hg.1
    omega
  | succ left ih =>
    intro p
    rcases writePage_spec e 128 (128 * p) .ongoing with ⟨j, h1, h2, h3, h4⟩ | ⟨h1, st', h2, h3, h4⟩
    · left
      refine ⟨128 * p + j, by omega, ⟨by omega, h2, ?_, ?_⟩, ?_⟩
      · intro i hi hk
        have := h3 (i - 128 * p) (by omega)
        rwa [show 128 * p + (i - 128 * p) = i by omega] at this
      · intro i hi hk; omega
      · rw [pages]
        simp only
        rw [h4]
        rw [if_neg (by simp), show 128 * p + j + 1 - 128 * p = j + 1 by omega]
    · by_cases hall : ∀ i, i < 128 → e.initAfter (128 * p + i) = true
      · have hst := h3 hall
        subst hst
        have hu : pages e (left + 1) p = (words e.mem (128 * p) 128 ++ (pages e left (p + 1)).1, (pages e left (p + 1)).2) := by
          rw [pages]
          simp only
          rw [h2, if_pos rfl]
        have e1 : 128 * (p + 1) = 128 * p + 128 := by omega
        have e2 : p + 1 + left = p + (left + 1) := by omega
        have hext : ∀ k, good e (128 * (p + 1)) k → good e (128 * p) k := by
          rintro k ⟨g1, g2, g3, g4⟩
          refine ⟨by omega, g2, ?_, ?_⟩
          · intro j hj hk
            by_cases c : j < 128 * (p + 1)
            · have := h1 (j - 128 * p) (by omega)
              rwa [show 128 * p + (j - 128 * p) = j by omega] at this
            · exact g3 j (by omega) hk
          · intro j hj hk
            by_cases c : j < 128 * (p + 1)
            · have := hall (j - 128 * p) (by omega)
              rwa [show 128 * p + (j - 128 * p) = j by omega] at this
            · exact g4 j (by omega) hk
        have hback : ∀ k, good e (128 * p) k → good e (128 * (p + 1)) k := by
          rintro k ⟨g1, g2, g3, g4⟩
          have hk : 128 * (p + 1) ≤ k := by
            by_cases c : k < 128 * (p + 1)
            · exfalso
              have := h1 (k - 128 * p) (by omega)
              rw [show 128 * p + (k - 128 * p) = k by omega] at this
              rw [this] at g2; exact absurd g2 (by decide)
            · omega
          exact ⟨hk, g2, fun j hj => g3 j (by omega), fun j hj => g4 j (by omega)⟩
        rcases ih (p + 1) with ⟨k, k1, k2, k3⟩ | ⟨k1, k2, n, k3⟩
        · left
          refine ⟨k, by omega, hext k k2, ?_⟩
          have := k2.1
          rw [hu, k3]
          simp only
          rw [e1, words_append, show 128 + (k + 1 - (128 * p + 128)) = k + 1 - 128 * p by omega]
        · right
          refine ⟨?_, ?_, 128 + n, ?_⟩
          · rintro ⟨k, g, hg⟩
            exact k1 ⟨k, by omega, hback k hg⟩
          · rw [hu]; exact k2
          · rw [hu]
            show words e.mem (128 * p) 128 ++ (pages e left (p + 1)).1 = _
            rw [k3, e1, words_append]
      · have hst := h4 hall
        subst hst
        right
        have hu : pages e (left + 1) p = (words e.mem (128 * p) 128, .crcError) := by
          rw [pages]
          simp only
          rw [h2, if_neg (by simp)]
        refine ⟨?_, by rw [hu]; simp, 128, by rw [hu]⟩
        rintro ⟨k, _, g1, g2, _, g4⟩
        by_cases c : k < 128 * (p + 1)
        · have := h1 (k - 128 * p) (by omega)
          rw [show 128 * p + (k - 128 * p) = k by omega] at this
          rw [this] at g2; exact absurd g2 (by decide)
        · apply hall
          intro i hi
          exact g4 _ (by omega) (by omega)

/-- C371: the bytes clocked out are the beginning of the memory, in order, each once, and in whole words; if `configure()` returns
true they end with the word after which DONE is first high, and eight cycles follow. -/
theorem C371_bytes (e : Env) (size : Nat) :
    (∃ n, (configure e size).1 = (List.range (2 * n)).map e.mem)
    ∧ ((configure e size).2.2 = true → (configure e size).2.1 = 8
      ∧ ∃ k, e.doneAfter k = true ∧ (∀ j, j < k → e.doneAfter j = false) ∧ (configure e size).1 = (List.range (2 * (k + 1))).map e.mem) := by
  have hz : ∀ n, words e.mem (128 * 0) n = (List.range (2 * n)).map e.mem := by
    intro n; unfold words; congr 1; funext i; congr 1; omega
  unfold configure
  by_cases c1 : wait e.cleared 1002 0 = false
  · rw [if_pos c1]; exact ⟨⟨0, rfl⟩, fun h => absurd h (by decide)⟩
  rw [if_neg c1]
  by_cases c2 : wait e.ready 1002 0 = false
  · rw [if_pos c2]; exact ⟨⟨0, rfl⟩, fun h => absurd h (by decide)⟩
  rw [if_neg c2]
  simp only
  rcases pages_spec e (size / 256 + 1) 0 with ⟨k, _, ⟨_, g2, g3, _⟩, k3⟩ | ⟨_, k2, n, k3⟩
  · rw [k3]
    simp only [if_true]
    rw [hz]
    exact ⟨⟨_, rfl⟩, fun _ => ⟨trivial, k, g2, fun j hj => g3 j (by omega) hj, rfl⟩⟩
  · rw [if_neg k2]
    refine ⟨⟨n, ?_⟩, fun h => absurd h (by simp)⟩
    rw [k3, hz]

/-- Two words: DONE is high after the second. -/
def two : Env := ⟨fun i => BitVec.ofNat 8 (i + 1), fun _ => true, fun i => decide (i = 3), fun k => decide (k = 1), fun _ => true⟩

example : configure two 1000 = ([1#8, 2#8, 3#8, 4#8], 8, true) := by decide +kernel

/-- C372 (partial): `configure()` returns true exactly if INIT_B and DONE go low within 1002 polls of the reset, INIT_B goes high
within 1002 polls of its end, DONE goes high in a page that begins within the size, and INIT_B was high after each word of the
pages before.  Missing: INIT_B low in the last page. -/
theorem C372_result_partial (e : Env) (size : Nat) :
    (configure e size).2.2 = true ↔ (∃ i, i ≤ 1001 ∧ e.cleared i = true) ∧ (∃ i, i ≤ 1001 ∧ e.ready i = true)
      ∧ ∃ k, 256 * (k / 128) ≤ size ∧ e.doneAfter k = true ∧ (∀ j, j < k → e.doneAfter j = false)
        ∧ ∀ j, j / 128 < k / 128 → e.initAfter j = true := by
  have w1 : wait e.cleared 1002 0 = true ↔ ∃ i, i ≤ 1001 ∧ e.cleared i = true := by
    rw [wait_iff e.cleared 1002 0 (by omega)]
    exact ⟨fun ⟨j, _, h2, h3⟩ => ⟨j, h2, h3⟩, fun ⟨j, h2, h3⟩ => ⟨j, by omega, h2, h3⟩⟩
  have w2 : wait e.ready 1002 0 = true ↔ ∃ i, i ≤ 1001 ∧ e.ready i = true := by
    rw [wait_iff e.ready 1002 0 (by omega)]
    exact ⟨fun ⟨j, _, h2, h3⟩ => ⟨j, h2, h3⟩, fun ⟨j, h2, h3⟩ => ⟨j, by omega, h2, h3⟩⟩
  rw [← w1, ← w2]
  unfold configure
  cases c1 : wait e.cleared 1002 0
  · simp
  cases c2 : wait e.ready 1002 0
  · simp
  simp only [Bool.true_eq_false, if_false, true_and]
  rcases pages_spec e (size / 256 + 1) 0 with ⟨k, k1, ⟨_, g2, g3, g4⟩, k3⟩ | ⟨k1, k2, n, k3⟩
  · rw [k3]
    simp only [if_true, true_iff]
    exact ⟨k, by omega, g2, fun j hj => g3 j (by omega) hj, fun j hj => g4 j (by omega) (by omega)⟩
  · rw [if_neg k2]
    simp only [Bool.false_eq_true, false_iff]
    rintro ⟨k, h1, h2, h3, h4⟩
    exact k1 ⟨k, by omega, by omega, h2, fun j _ => h3 j, fun j _ hj => h4 j (by omega)⟩

/-- C372 (false in general): INIT_B is low after the first word, that is, the FPGA reports an error, but the page is written on, and
if DONE is read as high in the same page, `configure()` returns true. -/
theorem C372_error_counterexample :
    (configure { two with initAfter := fun _ => false } 1000).2.2 = true := by decide +kernel

example : (configure { two with initAfter := fun _ => false, doneAfter := fun k => decide (k = 128) } 1000).2.2 = false := by decide +kernel

end Props.Spartan6
