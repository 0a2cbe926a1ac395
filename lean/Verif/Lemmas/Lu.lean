import Verif.Model.Lu
import Verif.Lemmas.Matrix
import Verif.Spec.Matrix
import Mathlib.Logic.Equiv.Basic

set_option autoImplicit false

/-!
# The row operations in closed form
-/

namespace Modm.Lu

open Modm.Matrix Modm.Spec.Matrix

variable {K : Type}

/-- The columns from `c0` on of a row. -/
theorem row_range {n i j c c0 : ℕ} (hc : c < n) (hc0 : c0 ≤ n) :
    (j * n + c0 ≤ i * n + c ∧ i * n + c < j * n + c0 + (n - c0)) ↔ i = j ∧ c0 ≤ c := by
  rcases lt_trichotomy i j with h | h | h
  · have := Nat.mul_le_mul_right n h
    rw [Nat.succ_mul] at this
    omega
  · subst h; omega
  · have := Nat.mul_le_mul_right n h
    rw [Nat.succ_mul] at this
    omega

/-- The columns before `c0` of a row. -/
theorem row_range_left {n i j c c0 : ℕ} (hc : c < n) (hc0 : c0 ≤ n) :
    (j * n ≤ i * n + c ∧ i * n + c < j * n + c0) ↔ i = j ∧ c < c0 := by
  rcases lt_trichotomy i j with h | h | h
  · have := Nat.mul_le_mul_right n h
    rw [Nat.succ_mul] at this
    omega
  · subst h; omega
  · have := Nat.mul_le_mul_right n h
    rw [Nat.succ_mul] at this
    omega

theorem multiply_at [Mul K] (size : ℕ) (m : ℕ → K) (a : ℕ) (f : K) (k : ℕ) :
    multiply size m a a f k = if a ≤ k ∧ k < a + size then m k * f else m k := by
  unfold multiply
  induction size with
  | zero => rw [loop, if_neg (by omega)]
  | succ size ih =>
    rw [loop]
    by_cases hk : k = a + size
    · subst hk
      rw [store_same, ih, if_neg (by omega), if_pos (by omega)]
    · rw [store_other _ _ hk, ih]
      congr 1
      exact propext (by omega)

theorem addRow_at [Add K] [Mul K] (size : ℕ) (m : ℕ → K) {a b : ℕ} (hab : b + size ≤ a ∨ a + size ≤ b) (f : K) (k : ℕ) :
    addRowTimesFactor size m a a b f k = if a ≤ k ∧ k < a + size then m k + m (b + (k - a)) * f else m k := by
  unfold addRowTimesFactor
  have key : ∀ s ≤ size, ∀ k, loop (fun i m => store m (a + i) (m (a + i) + m (b + i) * f)) s m k =
      if a ≤ k ∧ k < a + s then m k + m (b + (k - a)) * f else m k := by
    intro s hs
    induction s with
    | zero => intro k; rw [loop, if_neg (by omega)]
    | succ s ih =>
      intro k
      rw [loop]
      by_cases hk : k = a + s
      · subst hk
        rw [store_same, ih (by omega), if_neg (by omega), ih (by omega), if_neg (by omega), if_pos (by omega),
          Nat.add_sub_cancel_left]
      · rw [store_other _ _ hk, ih (by omega)]
        congr 1
        exact propext (by omega)
  exact key size le_rfl k

theorem copy_at (size : ℕ) (m g : ℕ → K) (a k : ℕ) :
    loop (fun i e => store e (a + i) (g i)) size m k = if a ≤ k ∧ k < a + size then g (k - a) else m k := by
  induction size with
  | zero => rw [loop, if_neg (by omega)]
  | succ size ih =>
    rw [loop]
    by_cases hk : k = a + size
    · subst hk
      rw [store_same, if_pos (by omega), Nat.add_sub_cancel_left]
    · rw [store_other _ _ hk, ih]
      congr 1
      exact propext (by omega)

theorem swap_at (size : ℕ) (m : ℕ → K) (a b k : ℕ) :
    swap size m a b k = if b ≤ k ∧ k < b + size then m (a + (k - b)) else
      if a ≤ k ∧ k < a + size then m (b + (k - a)) else m k := by
  rw [swap, copy_at size _ (fun i => m (a + i)), copy_at size _ (fun i => m (b + i))]

/-- The part of a row from a column on is exchanged. -/
theorem swap_right {n c0 r1 r2 : ℕ} (hc0 : c0 ≤ n) (m : ℕ → K) {i c : ℕ} (hc : c < n) :
    swap (n - c0) m (r1 * n + c0) (r2 * n + c0) (i * n + c) =
      if c0 ≤ c then m (Equiv.swap r1 r2 i * n + c) else m (i * n + c) := by
  rw [swap_at]
  simp only [row_range hc hc0]
  by_cases h : c0 ≤ c
  · rw [if_pos h]
    by_cases h2 : i = r2
    · subst h2
      rw [if_pos ⟨rfl, h⟩, Equiv.swap_apply_right]
      congr 1; omega
    · rw [if_neg (fun hh => h2 hh.1)]
      by_cases h1 : i = r1
      · subst h1
        rw [if_pos ⟨rfl, h⟩, Equiv.swap_apply_left]
        congr 1; omega
      · rw [if_neg (fun hh => h1 hh.1), Equiv.swap_apply_of_ne_of_ne h1 h2]
  · rw [if_neg h, if_neg (fun hh => h hh.2), if_neg (fun hh => h hh.2)]

/-- The part of a row before a column is exchanged. -/
theorem swap_left {n c0 r1 r2 : ℕ} (hc0 : c0 ≤ n) (m : ℕ → K) {i c : ℕ} (hc : c < n) :
    swap c0 m (r1 * n) (r2 * n) (i * n + c) =
      if c < c0 then m (Equiv.swap r1 r2 i * n + c) else m (i * n + c) := by
  rw [swap_at]
  simp only [row_range_left hc hc0]
  by_cases h : c < c0
  · rw [if_pos h]
    by_cases h2 : i = r2
    · subst h2
      rw [if_pos ⟨rfl, h⟩, Equiv.swap_apply_right]
      congr 1; omega
    · rw [if_neg (fun hh => h2 hh.1)]
      by_cases h1 : i = r1
      · subst h1
        rw [if_pos ⟨rfl, h⟩, Equiv.swap_apply_left]
        congr 1; omega
      · rw [if_neg (fun hh => h1 hh.1), Equiv.swap_apply_of_ne_of_ne h1 h2]
  · rw [if_neg h, if_neg (fun hh => h hh.2), if_neg (fun hh => h hh.2)]

/-- One step of the decomposition, element by element. -/
theorem decomposeStep_at [Ring K] (recip : K → K) {n k : ℕ} (hk : k < n) (s : (ℕ → K) × (ℕ → K)) {i c : ℕ} (hi : i < n) (hc : c < n) :
    (decomposeStep recip n k s).1 (i * n + c) =
      (if c < k ∨ i < k then s.1 (i * n + c)
        else if i = k then (if c = k then 1 else s.1 (k * n + c) * recip (s.1 (k * n + k)))
        else if c = k then 0
        else s.1 (i * n + c) + s.1 (k * n + c) * recip (s.1 (k * n + k)) * -(s.1 (i * n + k))) ∧
    (decomposeStep recip n k s).2 (i * n + c) = (if c = k ∧ k ≤ i then s.1 (i * n + k) else s.2 (i * n + c)) := by
  have hk1 : k + 1 ≤ n := hk
  unfold decomposeStep
  -- the row of the pivot
  obtain ⟨u0, hu0⟩ : ∃ u0, u0 = multiply (n - k - 1) (store s.1 (k * n + k) 1) (k * n + k + 1) (k * n + k + 1) (recip (s.1 (k * n + k))) := ⟨_, rfl⟩
  obtain ⟨l0, hl0⟩ : ∃ l0, l0 = store s.2 (k * n + k) (s.1 (k * n + k)) := ⟨_, rfl⟩
  have hu0' : ∀ i c, c < n → u0 (i * n + c) =
      if i = k then (if c = k then 1 else if k < c then s.1 (k * n + c) * recip (s.1 (k * n + k)) else s.1 (k * n + c)) else s.1 (i * n + c) := by
    intro i c hc
    rw [hu0, multiply_at]
    have := row_range (i := i) (j := k) hc hk1
    rw [← Nat.add_assoc, ← Nat.sub_sub] at this
    rw [if_congr this rfl rfl]
    by_cases hik : i = k
    · subst hik
      rw [if_pos rfl]
      by_cases hck : c = i
      · subst hck
        rw [if_neg (by omega), store_same, if_pos rfl]
      · rw [if_neg hck, store_other _ _ (by omega)]
        congr 1
        exact propext (by omega)
    · rw [if_neg (fun h => hik h.1), if_neg hik, store_other]
      rw [Ne, place_inj hc hk]; exact fun h => hik h.1
  have hl0' : ∀ i c, c < n → l0 (i * n + c) = if i = k ∧ c = k then s.1 (k * n + k) else s.2 (i * n + c) := by
    intro i c hc
    rw [hl0]
    by_cases h : i = k ∧ c = k
    · rw [if_pos h, h.1, h.2, store_same]
    · rw [if_neg h, store_other]
      rw [Ne, place_inj hc hk]; exact h
  dsimp only
  rw [← hu0, ← hl0]
  have key : ∀ m ≤ n - (k + 1), ∀ i c, c < n →
      (loop (fun i (s : (ℕ → K) × (ℕ → K)) =>
        (addRowTimesFactor (n - k - 1) (store s.1 ((k + 1 + i) * n + k) 0) ((k + 1 + i) * n + k + 1) ((k + 1 + i) * n + k + 1)
          (k * n + k + 1) (-s.1 ((k + 1 + i) * n + k)), store s.2 ((k + 1 + i) * n + k) (s.1 ((k + 1 + i) * n + k)))) m (u0, l0)).1 (i * n + c) =
        (if k < i ∧ i < k + 1 + m ∧ k ≤ c then (if c = k then 0 else s.1 (i * n + c) + u0 (k * n + c) * -(s.1 (i * n + k))) else u0 (i * n + c)) ∧
      (loop (fun i (s : (ℕ → K) × (ℕ → K)) =>
        (addRowTimesFactor (n - k - 1) (store s.1 ((k + 1 + i) * n + k) 0) ((k + 1 + i) * n + k + 1) ((k + 1 + i) * n + k + 1)
          (k * n + k + 1) (-s.1 ((k + 1 + i) * n + k)), store s.2 ((k + 1 + i) * n + k) (s.1 ((k + 1 + i) * n + k)))) m (u0, l0)).2 (i * n + c) =
        (if k < i ∧ i < k + 1 + m ∧ c = k then s.1 (i * n + k) else l0 (i * n + c)) := by
    intro m hm
    induction m with
    | zero => intro i c hc; rw [loop, if_neg (by omega), if_neg (by omega)]; exact ⟨rfl, rfl⟩
    | succ m ih =>
      intro i c hc
      replace ih := ih (by omega)
      rw [loop]
      generalize hq : loop _ m (u0, l0) = q at ih ⊢
      dsimp only
      obtain ⟨j, hj⟩ : ∃ j, j = k + 1 + m := ⟨_, rfl⟩
      rw [← hj]
      have hjn : j < n := by omega
      -- the factor
      have hfac : q.1 (j * n + k) = s.1 (j * n + k) := by
        rw [(ih j k hk).1, if_neg (by omega), hu0' j k hk, if_neg (by omega)]
      have hpiv : ∀ c, c < n → store q.1 (j * n + k) 0 (k * n + c) = u0 (k * n + c) := by
        intro c hc
        rw [store_other _ _ (by rw [Ne, place_inj hc hk]; omega), (ih k c hc).1, if_neg (by omega)]
      refine ⟨?_, ?_⟩
      · have hdis : k * n + k + 1 + (n - k - 1) ≤ j * n + k + 1 := by
          have := Nat.mul_le_mul_right n (show k + 1 ≤ j by omega)
          rw [Nat.succ_mul] at this
          omega
        rw [addRow_at _ _ (Or.inl hdis)]
        have := row_range (i := i) (j := j) hc hk1
        rw [← Nat.add_assoc, ← Nat.sub_sub] at this
        rw [if_congr this rfl rfl]
        by_cases hij : i = j
        · subst hij
          by_cases hck : k + 1 ≤ c
          · rw [if_pos ⟨rfl, hck⟩, if_pos (by omega), if_neg (by omega), store_other _ _ (by omega), (ih i c hc).1, if_neg (by omega),
              hu0' i c hc, if_neg (by omega), hfac, show k * n + k + 1 + (i * n + c - (i * n + k + 1)) = k * n + c by omega, hpiv c hc]
          · rw [if_neg (by omega)]
            by_cases hck' : c = k
            · subst hck'
              rw [store_same, if_pos (by omega), if_pos rfl]
            · rw [store_other _ _ (by omega), (ih i c hc).1, if_neg (by omega), if_neg (by omega)]
        · rw [if_neg (fun h => hij h.1), store_other _ _ (by rw [Ne, place_inj hc hk]; exact fun h => hij h.1), (ih i c hc).1]
          congr 1
          exact propext (by omega)
      · by_cases hij : i = j ∧ c = k
        · obtain ⟨rfl, rfl⟩ := hij
          rw [store_same, hfac, if_pos (by omega)]
        · rw [store_other _ _ (by rw [Ne, place_inj hc hk]; exact hij), (ih i c hc).2]
          congr 1
          exact propext (by omega)
  have hfin := key (n - (k + 1)) le_rfl i c hc
  refine ⟨?_, ?_⟩
  · rw [hfin.1, hu0' i c hc, hu0' k c hc]
    by_cases hik : i = k
    · subst hik
      split_ifs <;> first | rfl | (exfalso; omega)
    · split_ifs <;> first | rfl | (exfalso; omega)
  · rw [hfin.2, hl0' i c hc]
    rcases lt_trichotomy i k with h | h | h
    · rw [if_neg (by omega), if_neg (by omega), if_neg (by omega)]
    · subst h
      rw [if_neg (by omega)]
      congr 1
      exact propext (by omega)
    · by_cases h2 : c = k
      · rw [if_pos (by omega), if_pos (by omega)]
      · rw [if_neg (by omega), if_neg (by omega), if_neg (by omega)]

/-- The row found has the largest element, in absolute value. -/
theorem maxRow_spec [Ring K] [LinearOrder K] (n k : ℕ) (hk : k < n) (u : ℕ → K) :
    k ≤ maxRow n k u ∧ maxRow n k u < n ∧ ∀ i, k ≤ i → i < n → |u (i * n + k)| ≤ |u (maxRow n k u * n + k)| := by
  unfold maxRow
  have key : ∀ m ≤ n - (k + 1), ∀ q : K × ℕ, q = (loop (fun i (s : K × ℕ) =>
      let j := k + 1 + i
      let v := |u (j * n + k)|
      if s.1 < v then (v, j) else s) m (|u (k * n + k)|, k)) →
      k ≤ q.2 ∧ q.2 < n ∧ q.1 = |u (q.2 * n + k)| ∧ ∀ i, k ≤ i → i < k + 1 + m → |u (i * n + k)| ≤ q.1 := by
    intro m hm
    induction m with
    | zero =>
      rintro q rfl
      refine ⟨le_rfl, hk, rfl, fun i h1 h2 => ?_⟩
      obtain rfl : i = k := by omega
      exact le_rfl
    | succ m ih =>
      intro q hq
      rw [loop] at hq
      obtain ⟨h1, h2, h3, h4⟩ := ih (by omega) _ rfl
      generalize loop _ m _ = s at hq h1 h2 h3 h4
      dsimp only at hq
      split at hq
      · rename_i hlt
        subst hq
        refine ⟨by dsimp only; omega, by dsimp only; omega, rfl, fun i g1 g2 => ?_⟩
        by_cases hi : i = k + 1 + m
        · subst hi; exact le_rfl
        · exact (h4 i g1 (by omega)).trans hlt.le
      · rename_i hlt
        subst hq
        refine ⟨h1, h2, h3, fun i g1 g2 => ?_⟩
        by_cases hi : i = k + 1 + m
        · subst hi; exact not_lt.mp hlt
        · exact h4 i g1 (by omega)
  obtain ⟨h1, h2, h3, h4⟩ := key _ le_rfl _ rfl
  refine ⟨h1, h2, fun i g1 g2 => ?_⟩
  rw [← h3]
  exact h4 i g1 (by omega)

/-- One level of the forward substitution. -/
theorem solveLStep_at [Ring K] (recip : K → K) {n w k : ℕ} (hk : k < n) (s : (ℕ → K) × (ℕ → K)) :
    (∀ {i c : ℕ}, i < n → c < w → (solveLStep recip n w k s).2 (i * w + c) =
      if i < k then s.2 (i * w + c)
      else if i = k then s.2 (k * w + c) * recip (s.1 (k * n + k))
      else s.2 (i * w + c) + s.2 (k * w + c) * recip (s.1 (k * n + k)) * -(s.1 (i * n + k))) ∧
    ∀ {i c : ℕ}, c < n → k < c → (solveLStep recip n w k s).1 (i * n + c) = s.1 (i * n + c) := by
  unfold solveLStep
  obtain ⟨b0, hb0⟩ : ∃ b0, b0 = multiply w s.2 (k * w) (k * w) (recip (s.1 (k * n + k))) := ⟨_, rfl⟩
  have hb0' : ∀ i c, c < w → b0 (i * w + c) = if i = k then s.2 (k * w + c) * recip (s.1 (k * n + k)) else s.2 (i * w + c) := by
    intro i c hc
    rw [hb0, multiply_at]
    have := row_range_left (i := i) (j := k) hc le_rfl
    rw [if_congr this rfl rfl]
    by_cases hik : i = k
    · subst hik; rw [if_pos ⟨rfl, hc⟩, if_pos rfl]
    · rw [if_neg (fun h => hik h.1), if_neg hik]
  dsimp only
  rw [← hb0]
  have key : ∀ m ≤ n - (k + 1),
      (∀ i c, c < w → (loop (fun i (s : (ℕ → K) × (ℕ → K)) =>
        (store s.1 ((k + 1 + i) * n + k) 0, addRowTimesFactor w s.2 ((k + 1 + i) * w) ((k + 1 + i) * w) (k * w) (-s.1 ((k + 1 + i) * n + k))))
          m (s.1, b0)).2 (i * w + c) =
        if k < i ∧ i < k + 1 + m then s.2 (i * w + c) + b0 (k * w + c) * -(s.1 (i * n + k)) else b0 (i * w + c)) ∧
      (∀ i c, c < n → (loop (fun i (s : (ℕ → K) × (ℕ → K)) =>
        (store s.1 ((k + 1 + i) * n + k) 0, addRowTimesFactor w s.2 ((k + 1 + i) * w) ((k + 1 + i) * w) (k * w) (-s.1 ((k + 1 + i) * n + k))))
          m (s.1, b0)).1 (i * n + c) = if k < i ∧ i < k + 1 + m ∧ c = k then 0 else s.1 (i * n + c)) := by
    intro m hm
    induction m with
    | zero =>
      refine ⟨fun i c hc => ?_, fun i c hc => ?_⟩
      · rw [loop, if_neg (by omega)]
      · rw [loop, if_neg (by omega)]
    | succ m ih =>
      obtain ⟨ih1, ih2⟩ := ih (by omega)
      rw [loop]
      generalize hq : loop _ m (s.1, b0) = q at ih1 ih2 ⊢
      dsimp only
      obtain ⟨j, hj⟩ : ∃ j, j = k + 1 + m := ⟨_, rfl⟩
      rw [← hj]
      have hfac : q.1 (j * n + k) = s.1 (j * n + k) := by
        rw [ih2 j k hk, if_neg (by omega)]
      refine ⟨fun i c hc => ?_, fun i c hc => ?_⟩
      · have hdis : k * w + w ≤ j * w := by
          have := Nat.mul_le_mul_right w (show k + 1 ≤ j by omega)
          rwa [Nat.succ_mul] at this
        rw [addRow_at _ _ (Or.inl hdis)]
        have := row_range_left (i := i) (j := j) hc le_rfl
        rw [if_congr this rfl rfl]
        by_cases hij : i = j
        · subst hij
          rw [if_pos ⟨rfl, hc⟩, if_pos (by omega), ih1 i c hc, if_neg (by omega), hb0' i c hc, if_neg (by omega), hfac,
            show k * w + (i * w + c - i * w) = k * w + c by omega, ih1 k c hc, if_neg (by omega)]
        · rw [if_neg (fun h => hij h.1), ih1 i c hc]
          congr 1
          exact propext (by omega)
      · by_cases hij : i = j ∧ c = k
        · obtain ⟨rfl, rfl⟩ := hij
          rw [store_same, if_pos (by omega)]
        · rw [store_other _ _ (by rw [Ne, place_inj hc hk]; exact hij), ih2 i c hc]
          congr 1
          exact propext (by omega)
  obtain ⟨h1, h2⟩ := key (n - (k + 1)) le_rfl
  refine ⟨fun {i c} hi hc => ?_, fun {i c} hc hkc => ?_⟩
  · rw [h1 i c hc]
    rcases lt_trichotomy i k with h | h | h
    · rw [if_neg (by omega), if_pos h, hb0' i c hc, if_neg (by omega)]
    · subst h
      rw [if_neg (by omega), if_neg (by omega), if_pos rfl, hb0' i c hc, if_pos rfl]
    · rw [if_pos (by omega), if_neg (by omega), if_neg (by omega), hb0' k c hc, if_pos rfl]
  · rw [h2 i c hc, if_neg (by omega)]

/-- One level of the backward substitution. -/
theorem solveUStep_at [Ring K] {n w k : ℕ} (hk : k + 1 < n) (s : (ℕ → K) × (ℕ → K)) :
    (∀ {i c : ℕ}, i < n → c < w → (solveUStep n w k s).2 (i * w + c) =
      if i < k + 1 then s.2 (i * w + c) + s.2 ((k + 1) * w + c) * -(s.1 (i * n + (k + 1))) else s.2 (i * w + c)) ∧
    ∀ {i c : ℕ}, c < n → c < k + 1 → (solveUStep n w k s).1 (i * n + c) = s.1 (i * n + c) := by
  unfold solveUStep
  have key : ∀ m ≤ k + 1,
      (∀ i c, c < w → (loop (fun j (s : (ℕ → K) × (ℕ → K)) =>
        (store s.1 (j * n + (k + 1)) 0, addRowTimesFactor w s.2 (j * w) (j * w) ((k + 1) * w) (-s.1 (j * n + (k + 1))))) m s).2 (i * w + c) =
        if i < m then s.2 (i * w + c) + s.2 ((k + 1) * w + c) * -(s.1 (i * n + (k + 1))) else s.2 (i * w + c)) ∧
      (∀ i c, c < n → (loop (fun j (s : (ℕ → K) × (ℕ → K)) =>
        (store s.1 (j * n + (k + 1)) 0, addRowTimesFactor w s.2 (j * w) (j * w) ((k + 1) * w) (-s.1 (j * n + (k + 1))))) m s).1 (i * n + c) =
        if i < m ∧ c = k + 1 then 0 else s.1 (i * n + c)) := by
    intro m hm
    induction m with
    | zero =>
      refine ⟨fun i c hc => ?_, fun i c hc => ?_⟩
      · rw [loop, if_neg (by omega)]
      · rw [loop, if_neg (by omega)]
    | succ m ih =>
      obtain ⟨ih1, ih2⟩ := ih (by omega)
      rw [loop]
      generalize hq : loop _ m s = q at ih1 ih2 ⊢
      dsimp only
      have hfac : q.1 (m * n + (k + 1)) = s.1 (m * n + (k + 1)) := by
        rw [ih2 m _ hk, if_neg (by omega)]
      refine ⟨fun i c hc => ?_, fun i c hc => ?_⟩
      · have hdis : m * w + w ≤ (k + 1) * w := by
          have := Nat.mul_le_mul_right w (show m + 1 ≤ k + 1 by omega)
          rwa [Nat.succ_mul] at this
        rw [addRow_at _ _ (Or.inr hdis)]
        have := row_range_left (i := i) (j := m) hc le_rfl
        rw [if_congr this rfl rfl]
        by_cases hij : i = m
        · subst hij
          rw [if_pos ⟨rfl, hc⟩, if_pos (by omega), ih1 i c hc, if_neg (by omega), hfac,
            show (k + 1) * w + (i * w + c - i * w) = (k + 1) * w + c by omega, ih1 (k + 1) c hc, if_neg (by omega)]
        · rw [if_neg (fun h => hij h.1), ih1 i c hc]
          congr 1
          exact propext (by omega)
      · by_cases hij : i = m ∧ c = k + 1
        · obtain ⟨rfl, rfl⟩ := hij
          rw [store_same, if_pos (by omega)]
        · rw [store_other _ _ (by rw [Ne, place_inj hc hk]; exact hij), ih2 i c hc]
          congr 1
          exact propext (by omega)
  obtain ⟨h1, h2⟩ := key (k + 1) le_rfl
  refine ⟨fun {i c} hi hc => h1 i c hc, fun {i c} hc hkc => ?_⟩
  rw [h2 i c hc, if_neg (by omega)]

end Modm.Lu
