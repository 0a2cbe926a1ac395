import Verif.Model.Matrix
import Mathlib.Algebra.BigOperators.Group.Finset.Basic
import Mathlib.Tactic.Ring
import Mathlib.Tactic.Linarith

set_option autoImplicit false

/-!
# Loops over memory
-/

namespace Modm.Matrix

variable {T S : Type}

theorem loop_inv {f : ℕ → S → S} {n : ℕ} {s : S} (P : ℕ → S → Prop) (h0 : P 0 s)
    (hs : ∀ i s, i < n → P i s → P (i + 1) (f i s)) : P n (loop f n s) := by
  induction n with
  | zero => exact h0
  | succ n ih => exact hs n _ (by omega) (ih fun i s hi => hs i s (by omega))

theorem store_same (m : ℕ → T) (k : ℕ) (v : T) : store m k v k = v := if_pos rfl

theorem store_other (m : ℕ → T) {k i : ℕ} (v : T) (h : i ≠ k) : store m k v i = m i := if_neg h

/-- A loop which stores a function of the old value at each place. -/
theorem loop_store (g : ℕ → T → T) (n : ℕ) (e : ℕ → T) (k : ℕ) :
    loop (fun i e => store e i (g i (e i))) n e k = if k < n then g k (e k) else e k := by
  induction n with
  | zero => simp [loop]
  | succ n ih =>
    rw [loop]
    by_cases hk : k = n
    · subst hk
      rw [store_same, ih, if_neg (lt_irrefl _), if_pos (by omega)]
    · rw [store_other _ _ hk, ih]
      congr 1
      exact propext (by omega)

/-- Places in a matrix with `c` columns are different. -/
theorem place_inj {c i j i' j' : ℕ} (hj : j < c) (hj' : j' < c) : i * c + j = i' * c + j' ↔ i = i' ∧ j = j' := by
  refine ⟨fun h => ?_, fun h => by rw [h.1, h.2]⟩
  have h1 : i = i' := by
    rcases lt_trichotomy i i' with hlt | heq | hgt
    · nlinarith [Nat.mul_le_mul_right c hlt]
    · exact heq
    · nlinarith [Nat.mul_le_mul_right c hgt]
  subst h1
  exact ⟨rfl, by omega⟩

theorem place_lt {r c i j : ℕ} (hi : i < r) (hj : j < c) : i * c + j < r * c := by
  nlinarith [Nat.mul_le_mul_right c hi]

/-- A double loop which stores a function of the row and the column, in a matrix with `w` columns: the rectangle of `r` rows
and `c` columns from `(i0, j0)` on. -/
theorem loop_store2 (g : ℕ → ℕ → T) {w r c i0 j0 : ℕ} (hw : c = 0 ∨ j0 + c ≤ w) (e : ℕ → T) {i j : ℕ} (hj : j < w) :
    loop (fun i e => loop (fun j e => store e ((i + i0) * w + (j + j0)) (g i j)) c e) r e (i * w + j) =
      if i0 ≤ i ∧ i < i0 + r ∧ j0 ≤ j ∧ j < j0 + c then g (i - i0) (j - j0) else e (i * w + j) := by
  have inner : ∀ (a : ℕ) (e : ℕ → T) (n : ℕ), n ≤ c →
      loop (fun j e => store e ((a + i0) * w + (j + j0)) (g a j)) n e (i * w + j) =
        if i = a + i0 ∧ j0 ≤ j ∧ j < j0 + n then g a (j - j0) else e (i * w + j) := by
    intro a e n hn
    induction n with
    | zero => rw [loop, if_neg (by omega)]
    | succ n ih =>
      rw [loop]
      by_cases hh : i = a + i0 ∧ j = n + j0
      · obtain ⟨rfl, rfl⟩ := hh
        rw [store_same, if_pos ⟨rfl, by omega, by omega⟩, Nat.add_sub_cancel]
      · rw [store_other _ _ (by rw [Ne, place_inj hj (by omega)]; exact hh), ih (by omega)]
        congr 1
        exact propext (by omega)
  induction r with
  | zero => rw [loop, if_neg (by omega)]
  | succ r ih =>
    rw [loop, inner r _ c le_rfl, ih]
    by_cases hi : i = r + i0
    · subst hi
      by_cases hjj : j0 ≤ j ∧ j < j0 + c
      · rw [if_pos ⟨rfl, hjj⟩, if_pos ⟨by omega, by omega, hjj⟩, Nat.add_sub_cancel]
      · rw [if_neg (fun h => hjj h.2), if_neg (fun h => hjj h.2.2), if_neg (fun h => hjj h.2.2)]
    · rw [if_neg (fun h => hi h.1)]
      congr 1
      exact propext (by omega)

theorem loop_sum [AddCommMonoid T] (f : ℕ → T) (n : ℕ) (v : T) :
    loop (fun i v => v + f i) n v = v + ∑ i ∈ Finset.range n, f i := by
  induction n with
  | zero => simp [loop]
  | succ n ih => rw [loop, ih, Finset.sum_range_succ, add_assoc]

end Modm.Matrix
