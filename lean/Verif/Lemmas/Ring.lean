import Mathlib.Data.List.Basic
set_option autoImplicit false
/- A list used as ring buffer: entry `idx` is the oldest. -/
namespace Ring
universe u
variable {T : Type u}

/-- rotating `buf` by `idx` gives `w`, oldest first -/
def RingL (n : Nat) (buf : List T) (idx : Nat) (w : List T) : Prop :=
  ∃ A B, buf = A ++ B ∧ idx = A.length ∧ w = B ++ A ∧ 0 < B.length ∧ buf.length = n

theorem RingL.length {n : Nat} {buf : List T} {idx : Nat} {w : List T} (h : RingL n buf idx w) : w.length = n := by
  obtain ⟨A, B, hb, _, rfl, _, hn⟩ := h
  rw [hb] at hn; simp at hn ⊢; omega

theorem RingL.step {n : Nat} {buf : List T} {idx : Nat} {w : List T} (h : RingL n buf idx w) (v : T) :
    ∃ old w', w = old :: w' ∧ buf[idx]? = some old ∧
      RingL n (buf.set idx v) (if idx + 1 = n then 0 else idx + 1) (w' ++ [v]) := by
  obtain ⟨A, B, hb, hi, rfl, hB, hn⟩ := h
  match B, hB with
  | o :: B, _ =>
    have hset : buf.set idx v = A ++ v :: B := by
      rw [hb, hi, List.set_append_right _ _ (Nat.le_refl _)]; simp
    have hlen : A.length + (B.length + 1) = n := by rw [← hn, hb]; simp
    refine ⟨o, B ++ A, by simp, by rw [hb, hi]; simp, ?_⟩
    by_cases he : B = []
    · subst he
      refine ⟨[], A ++ [v], by rw [hset]; simp, ?_, by simp, by simp, by rw [hset]; simpa using hlen⟩
      simp at hlen; rw [if_pos (by omega)]; rfl
    · have := List.length_pos_iff.2 he
      refine ⟨A ++ [v], B, by simp [hset], ?_, by simp, this, by rw [hset]; simpa using hlen⟩
      rw [if_neg (by omega), hi]; simp

theorem RingL.init (n : Nat) (hn : 0 < n) (v : T) : RingL n (List.replicate n v) 0 (List.replicate n v) :=
  ⟨[], List.replicate n v, by simp, by simp, by simp, by simpa using hn, by simp⟩

end Ring
