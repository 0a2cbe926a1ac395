import Verif.Model.Rtt

set_option autoImplicit false

/-! Lemmas for the real time transfer. -/

namespace Modm.Rtt

theorem mod_inj (N a b : Nat) (h1 : a ≤ b) (h2 : b < a + N) (h : a % N = b % N) : a = b := by
  have h3 : (b - a) % N = 0 := Nat.sub_mod_eq_zero_of_mod_eq h.symm
  rw [Nat.mod_eq_of_lt (by omega)] at h3
  omega

theorem succ_mod (N a : Nat) : (a % N + 1) % N = (a + 1) % N := Nat.mod_add_mod a N 1

theorem accepted_true (log : List (Byte × Bool)) (d : Byte) : accepted (log ++ [(d, true)]) = accepted log ++ [d] := by simp [accepted]
theorem accepted_false (log : List (Byte × Bool)) (d : Byte) : accepted (log ++ [(d, false)]) = accepted log := by simp [accepted]
theorem received_some (log : List (Option Byte)) (d : Byte) : received (log ++ [some d]) = received log ++ [d] := by simp [received]
theorem received_none (log : List (Option Byte)) : received (log ++ [none]) = received log := by simp [received]

theorem take_succ_get (l : List Byte) (n : Nat) (v : Byte) (h : l[n]? = some v) : l.take (n + 1) = l.take n ++ [v] := by
  rw [List.take_succ, h]
  rfl

theorem lt_of_get (l : List Byte) (n : Nat) (v : Byte) (h : l[n]? = some v) : n < l.length := by
  rcases Nat.lt_or_ge n l.length with h' | h'
  · exact h'
  · rw [List.getElem?_eq_none h'] at h
    exact absurd h (by simp)

/-! ## Transmit -/

structure TInv (N : Nat) (s : Tx) : Prop where
  size : s.ring.size = N
  head : s.ring.head = (accepted s.log).length % N
  tail : s.ring.tail = s.acked % N
  cursor : s.cursor = s.got.length % N
  seen : ∃ K, s.seen = K % N ∧ s.got.length ≤ K ∧ K ≤ (accepted s.log).length
  acked : s.acked ≤ s.got.length
  full : (accepted s.log).length + 1 ≤ s.acked + N
  slots : ∀ i, s.acked ≤ i → i < (accepted s.log).length → (accepted s.log)[i]? = some (s.ring.buffer (i % N))
  got : s.got = (accepted s.log).take s.got.length
  pc : match s.pc with
    | .loaded _ h => h = (accepted s.log).length % N
    | .room _ h => h = (accepted s.log).length % N ∧ (accepted s.log).length + 1 < s.acked + N
    | .stored d h => h = (accepted s.log).length % N ∧ (accepted s.log).length + 1 < s.acked + N ∧ s.ring.buffer h = d
    | _ => True

theorem tinv_init (N : Nat) (hN : 0 < N) (b : Nat → Byte) : TInv N (Tx.init N b) where
  size := rfl
  head := by simp [Tx.init, accepted]
  tail := by simp [Tx.init]
  cursor := by simp [Tx.init]
  seen := ⟨0, by simp [Tx.init, accepted]⟩
  acked := by simp [Tx.init]
  full := by simp [Tx.init, accepted]; omega
  slots := by intro i _ h; simp [Tx.init, accepted] at h
  got := by simp [Tx.init]
  pc := trivial

theorem tinv_step (N : Nat) (hN : 0 < N) (s : Tx) (a : TxAct) (h : TInv N s) : ∃ s', s.step a = some s' ∧ TInv N s' := by
  obtain ⟨K, k1, k2, k3⟩ := h.seen
  have hpc := h.pc
  cases a with
  | call d =>
    cases hp : s.pc with
    | idle => exact ⟨{ s with pc := .start d }, by simp only [Tx.step, hp], ⟨h.size, h.head, h.tail, h.cursor, h.seen, h.acked, h.full, h.slots, h.got, trivial⟩⟩
    | start _ => exact ⟨s, by simp only [Tx.step, hp], h⟩
    | loaded _ _ => exact ⟨s, by simp only [Tx.step, hp], h⟩
    | room _ _ => exact ⟨s, by simp only [Tx.step, hp], h⟩
    | stored _ _ => exact ⟨s, by simp only [Tx.step, hp], h⟩
  | prog =>
    cases hp : s.pc with
    | idle => exact ⟨s, by simp only [Tx.step, Tx.prog, hp], h⟩
    | start d => exact ⟨{ s with pc := .loaded d s.ring.head }, by simp only [Tx.step, Tx.prog, hp], ⟨h.size, h.head, h.tail, h.cursor, h.seen, h.acked, h.full, h.slots, h.got, h.head⟩⟩
    | loaded d hd =>
      rw [hp] at hpc
      simp only at hpc
      have hs : s.ring.size ≠ 0 := by rw [h.size]; omega
      by_cases he : (hd + 1) % s.ring.size = s.ring.tail
      · refine ⟨{ s with pc := .idle, log := s.log ++ [(d, false)] }, by simp only [Tx.step, Tx.prog, hp, if_neg hs, if_pos he], ?_⟩
        have e := accepted_false s.log d
        exact ⟨h.size, by simp only [e]; exact h.head, h.tail, h.cursor, by simp only [e]; exact h.seen, h.acked, by simp only [e]; exact h.full,
          by simp only [e]; exact h.slots, by simp only [e]; exact h.got, trivial⟩
      · refine ⟨{ s with pc := .room d hd }, by simp only [Tx.step, Tx.prog, hp, if_neg hs, if_neg he], ?_⟩
        refine ⟨h.size, h.head, h.tail, h.cursor, h.seen, h.acked, h.full, h.slots, h.got, hpc, ?_⟩
        rw [hpc, h.size, h.tail, succ_mod] at he
        have hf := h.full
        have ha := h.acked
        show (accepted s.log).length + 1 < s.acked + N
        by_contra hc
        apply he
        rw [show (accepted s.log).length + 1 = s.acked + N by omega, Nat.add_mod_right]
    | room d hd =>
      rw [hp] at hpc
      simp only at hpc
      have hl : hd < s.ring.size := by rw [hpc.1, h.size]; exact Nat.mod_lt _ hN
      refine ⟨{ s with pc := .stored d hd, ring := { s.ring with buffer := Function.update s.ring.buffer hd d } }, by simp only [Tx.step, Tx.prog, hp, if_pos hl], ?_⟩
      refine ⟨h.size, h.head, h.tail, h.cursor, h.seen, h.acked, h.full, ?_, h.got, hpc.1, hpc.2, by simp⟩
      intro i h1 h2
      have hne : i % N ≠ hd := by
        intro e
        have := mod_inj N i (accepted s.log).length (Nat.le_of_lt h2) (by have := hpc.2; simp only at h1; omega) (by rw [e, hpc.1])
        simp only at h2
        omega
      simp only [Function.update_of_ne hne]
      exact h.slots i h1 h2
    | stored d hd =>
      rw [hp] at hpc
      simp only at hpc
      refine ⟨{ s with pc := .idle, ring := { s.ring with head := (hd + 1) % s.ring.size }, log := s.log ++ [(d, true)] }, by simp only [Tx.step, Tx.prog, hp], ?_⟩
      have e := accepted_true s.log d
      have hg : s.got.length ≤ (accepted s.log).length := by omega
      refine ⟨h.size, ?_, h.tail, h.cursor, ?_, h.acked, ?_, ?_, ?_, trivial⟩
      · simp only [e, List.length_append, List.length_singleton, h.size]
        rw [hpc.1, succ_mod]
      · simp only [e, List.length_append, List.length_singleton]
        exact ⟨K, k1, k2, by omega⟩
      · simp only [e, List.length_append, List.length_singleton]
        have := hpc.2.1
        omega
      · simp only [e, List.length_append, List.length_singleton]
        intro i h1 h2
        by_cases hi : i < (accepted s.log).length
        · rw [List.getElem?_append_left hi]
          exact h.slots i h1 hi
        · have : i = (accepted s.log).length := by omega
          rw [List.getElem?_append_right (by omega), this, Nat.sub_self, ← hpc.1, hpc.2.2]
          rfl
      · simp only [e]
        rw [List.take_append_of_le_length hg]
        exact h.got
  | look => exact ⟨{ s with seen := s.ring.head }, rfl, ⟨h.size, h.head, h.tail, h.cursor, ⟨(accepted s.log).length, h.head, Nat.le_trans k2 k3, Nat.le_refl _⟩, h.acked, h.full, h.slots, h.got, h.pc⟩⟩
  | take =>
    by_cases hc : s.cursor = s.seen
    · exact ⟨s, by simp only [Tx.step, if_pos hc], h⟩
    · refine ⟨{ s with got := s.got ++ [s.ring.buffer s.cursor], cursor := (s.cursor + 1) % s.ring.size }, by simp only [Tx.step, if_neg hc], ?_⟩
      have hlt : s.got.length < K := by
        rcases Nat.lt_or_ge s.got.length K with q | q
        · exact q
        · exact absurd (by rw [h.cursor, k1, show s.got.length = K by omega]) hc
      have hs := h.slots s.got.length h.acked (by omega)
      refine ⟨h.size, h.head, h.tail, ?_, ?_, ?_, h.full, h.slots, ?_, h.pc⟩
      · simp only [List.length_append, List.length_singleton]
        rw [h.cursor, h.size, succ_mod]
      · simp only [List.length_append, List.length_singleton]
        exact ⟨K, k1, by omega, k3⟩
      · simp only [List.length_append, List.length_singleton]
        have := h.acked
        omega
      · simp only [List.length_append, List.length_singleton]
        rw [h.cursor, take_succ_get _ _ _ hs, ← h.got]
  | ack =>
    refine ⟨{ s with ring := { s.ring with tail := s.cursor }, acked := s.got.length }, rfl, ?_⟩
    have ha := h.acked
    refine ⟨h.size, h.head, h.cursor, h.cursor, h.seen, Nat.le_refl _, by have := h.full; simp only; omega, ?_, h.got, ?_⟩
    · intro i h1 h2
      exact h.slots i (Nat.le_trans ha h1) h2
    · cases hp : s.pc with
      | idle => trivial
      | start _ => trivial
      | loaded _ _ => rw [hp] at hpc; exact hpc
      | room _ _ => rw [hp] at hpc; exact ⟨hpc.1, by have := hpc.2; simp only; omega⟩
      | stored _ _ => rw [hp] at hpc; exact ⟨hpc.1, by have := hpc.2.1; simp only; omega, hpc.2.2⟩

theorem tinv_run (N : Nat) (hN : 0 < N) : ∀ (l : List TxAct) (s : Tx), TInv N s → ∃ s', s.run l = some s' ∧ TInv N s' := by
  intro l
  induction l with
  | nil => exact fun s h => ⟨s, rfl, h⟩
  | cons a l ih =>
    intro s h
    obtain ⟨s1, e1, h1⟩ := tinv_step N hN s a h
    obtain ⟨s2, e2, h2⟩ := ih s1 h1
    exact ⟨s2, by rw [Tx.run, e1]; exact e2, h2⟩

/-! ## Receive -/

structure RInv (N : Nat) (s : Rx) : Prop where
  size : s.ring.size = N
  head : s.ring.head = s.shown % N
  tail : s.ring.tail = (received s.log).length % N
  cursor : s.cursor = s.put.length % N
  seen : ∃ S, s.seen = S % N ∧ S ≤ (received s.log).length ∧ s.put.length + 1 ≤ S + N
  le1 : (received s.log).length ≤ s.shown
  le2 : s.shown ≤ s.put.length
  slots : ∀ i, (received s.log).length ≤ i → i < s.put.length → s.put[i]? = some (s.ring.buffer (i % N))
  got : received s.log = s.put.take (received s.log).length
  pc : match s.pc with
    | .loaded h => ∃ V, h = V % N ∧ (received s.log).length ≤ V ∧ V ≤ s.shown
    | .some t => t = (received s.log).length % N ∧ (received s.log).length < s.shown
    | .taken d t => t = (received s.log).length % N ∧ (received s.log).length < s.shown ∧ s.put[(received s.log).length]? = some d
    | _ => True

theorem rinv_init (N : Nat) (hN : 0 < N) (b : Nat → Byte) : RInv N (Rx.init N b) where
  size := rfl
  head := by simp [Rx.init]
  tail := by simp [Rx.init, received]
  cursor := by simp [Rx.init]
  seen := ⟨0, by simp [Rx.init, received]; omega⟩
  le1 := by simp [Rx.init, received]
  le2 := by simp [Rx.init]
  slots := by intro i _ h; simp [Rx.init] at h
  got := by simp [Rx.init, received]
  pc := trivial

theorem rinv_step (N : Nat) (hN : 0 < N) (s : Rx) (a : RxAct) (h : RInv N s) : ∃ s', s.step a = some s' ∧ RInv N s' := by
  obtain ⟨S, k1, k2, k3⟩ := h.seen
  have hpc := h.pc
  have le1 := h.le1
  have le2 := h.le2
  cases a with
  | call =>
    cases hp : s.pc with
    | idle => exact ⟨{ s with pc := .start }, by simp only [Rx.step, hp], ⟨h.size, h.head, h.tail, h.cursor, h.seen, le1, le2, h.slots, h.got, trivial⟩⟩
    | start => exact ⟨s, by simp only [Rx.step, hp], h⟩
    | loaded _ => exact ⟨s, by simp only [Rx.step, hp], h⟩
    | some _ => exact ⟨s, by simp only [Rx.step, hp], h⟩
    | taken _ _ => exact ⟨s, by simp only [Rx.step, hp], h⟩
  | prog =>
    cases hp : s.pc with
    | idle => exact ⟨s, by simp only [Rx.step, Rx.prog, hp], h⟩
    | start => exact ⟨{ s with pc := .loaded s.ring.head }, by simp only [Rx.step, Rx.prog, hp], ⟨h.size, h.head, h.tail, h.cursor, h.seen, le1, le2, h.slots, h.got, ⟨_, h.head, le1, Nat.le_refl _⟩⟩⟩
    | loaded hd =>
      rw [hp] at hpc
      obtain ⟨V, v1, v2, v3⟩ := hpc
      by_cases he : s.ring.size = 0 ∨ s.ring.tail = hd
      · refine ⟨{ s with pc := .idle, log := s.log ++ [none] }, by simp only [Rx.step, Rx.prog, hp, if_pos he], ?_⟩
        have e := received_none s.log
        exact ⟨h.size, h.head, by simp only [e]; exact h.tail, h.cursor, by simp only [e]; exact h.seen, by simp only [e]; exact le1, le2,
          by simp only [e]; exact h.slots, by simp only [e]; exact h.got, trivial⟩
      · refine ⟨{ s with pc := .some s.ring.tail }, by simp only [Rx.step, Rx.prog, hp, if_neg he], ?_⟩
        refine ⟨h.size, h.head, h.tail, h.cursor, h.seen, le1, le2, h.slots, h.got, h.tail, ?_⟩
        show (received s.log).length < s.shown
        by_contra hc
        apply he
        right
        rw [h.tail, v1, show (received s.log).length = V by omega]
    | some t =>
      rw [hp] at hpc
      simp only at hpc
      have hl : t < s.ring.size := by rw [hpc.1, h.size]; exact Nat.mod_lt _ hN
      refine ⟨{ s with pc := .taken (s.ring.buffer t) t }, by simp only [Rx.step, Rx.prog, hp, if_pos hl], ?_⟩
      refine ⟨h.size, h.head, h.tail, h.cursor, h.seen, le1, le2, h.slots, h.got, hpc.1, hpc.2, ?_⟩
      show s.put[(received s.log).length]? = _
      rw [h.slots _ (Nat.le_refl _) (by omega), hpc.1]
    | taken d t =>
      rw [hp] at hpc
      simp only at hpc
      refine ⟨{ s with pc := .idle, ring := { s.ring with tail := (t + 1) % s.ring.size }, log := s.log ++ [Option.some d] }, by simp only [Rx.step, Rx.prog, hp], ?_⟩
      have e := received_some s.log d
      refine ⟨h.size, h.head, ?_, h.cursor, ?_, ?_, le2, ?_, ?_, trivial⟩
      · simp only [e, List.length_append, List.length_singleton]
        rw [hpc.1, h.size, succ_mod]
      · simp only [e, List.length_append, List.length_singleton]
        exact ⟨S, k1, by omega, k3⟩
      · simp only [e, List.length_append, List.length_singleton]
        have := hpc.2.1
        omega
      · simp only [e, List.length_append, List.length_singleton]
        intro i h1 h2
        exact h.slots i (by omega) h2
      · simp only [e, List.length_append, List.length_singleton]
        rw [take_succ_get _ _ _ hpc.2.2, ← h.got]
  | look => exact ⟨{ s with seen := s.ring.tail }, rfl, ⟨h.size, h.head, h.tail, h.cursor, ⟨_, h.tail, Nat.le_refl _, by simp only; omega⟩, le1, le2, h.slots, h.got, h.pc⟩⟩
  | put b =>
    by_cases hc : s.ring.size = 0 ∨ (s.cursor + 1) % s.ring.size = s.seen
    · exact ⟨s, by simp only [Rx.step, if_pos hc], h⟩
    · refine ⟨{ s with put := s.put ++ [b], ring := { s.ring with buffer := Function.update s.ring.buffer s.cursor b }, cursor := (s.cursor + 1) % s.ring.size },
        by simp only [Rx.step, if_neg hc], ?_⟩
      have hlt : s.put.length + 1 < S + N := by
        by_contra q
        apply hc
        right
        rw [h.cursor, h.size, k1, succ_mod, show s.put.length + 1 = S + N by omega, Nat.add_mod_right]
      refine ⟨h.size, h.head, h.tail, ?_, ?_, le1, ?_, ?_, ?_, ?_⟩
      · simp only [List.length_append, List.length_singleton]
        rw [h.cursor, h.size, succ_mod]
      · simp only [List.length_append, List.length_singleton]
        exact ⟨S, k1, k2, by omega⟩
      · simp only [List.length_append, List.length_singleton]
        omega
      · simp only [List.length_append, List.length_singleton]
        intro i h1 h2
        by_cases hi : i < s.put.length
        · have hne : i % N ≠ s.cursor := by
            intro e
            have := mod_inj N i s.put.length (Nat.le_of_lt hi) (by omega) (by rw [e, h.cursor])
            omega
          rw [List.getElem?_append_left hi, Function.update_of_ne hne]
          exact h.slots i h1 hi
        · have : i = s.put.length := by omega
          rw [List.getElem?_append_right (by omega), this, Nat.sub_self, h.cursor, Function.update_self]
          rfl
      · simp only
        rw [List.take_append_of_le_length (by omega)]
        exact h.got
      · cases hp : s.pc with
        | idle => trivial
        | start => trivial
        | loaded _ => rw [hp] at hpc; exact hpc
        | some _ => rw [hp] at hpc; exact hpc
        | taken _ _ =>
          rw [hp] at hpc
          refine ⟨hpc.1, hpc.2.1, ?_⟩
          simp only
          rw [List.getElem?_append_left (by have := hpc.2.1; omega)]
          exact hpc.2.2
  | «show» =>
    refine ⟨{ s with ring := { s.ring with head := s.cursor }, shown := s.put.length }, rfl, ?_⟩
    refine ⟨h.size, h.cursor, h.tail, h.cursor, h.seen, by simp only; omega, Nat.le_refl _, h.slots, h.got, ?_⟩
    cases hp : s.pc with
    | idle => trivial
    | start => trivial
    | loaded _ =>
      rw [hp] at hpc
      obtain ⟨V, v1, v2, v3⟩ := hpc
      exact ⟨V, v1, v2, by simp only; omega⟩
    | some _ => rw [hp] at hpc; exact ⟨hpc.1, by have := hpc.2; simp only; omega⟩
    | taken _ _ => rw [hp] at hpc; exact ⟨hpc.1, by have := hpc.2.1; simp only; omega, hpc.2.2⟩

theorem rinv_run (N : Nat) (hN : 0 < N) : ∀ (l : List RxAct) (s : Rx), RInv N s → ∃ s', s.run l = some s' ∧ RInv N s' := by
  intro l
  induction l with
  | nil => exact fun s h => ⟨s, rfl, h⟩
  | cons a l ih =>
    intro s h
    obtain ⟨s1, e1, h1⟩ := rinv_step N hN s a h
    obtain ⟨s2, e2, h2⟩ := ih s1 h1
    exact ⟨s2, by rw [Rx.run, e1]; exact e2, h2⟩

end Modm.Rtt
