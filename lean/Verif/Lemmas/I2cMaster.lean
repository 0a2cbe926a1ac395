import Mathlib.Logic.Function.Basic
import Verif.Spec.I2cMaster

/-! # The transactions of the three kinds of objects -/

set_option autoImplicit false

namespace Lemmas.I2cMaster

open Modm.I2c Modm.Spec.I2c I2cMasterSpec

variable {α τ : Type} (A : App α) (T : Transaction τ)

theorem exec_writes (bytes : List Byte) (rest : List Step) (s : α) :
    exec A (bytes.map .write ++ rest) s =
      if (writes A bytes s).1 then exec A rest (writes A bytes s).2 else (.dataNack, [], A.stop (writes A bytes s).2) := by
  induction bytes generalizing s with
  | nil => simp [writes]
  | cons x l ih =>
      simp only [List.map_cons, List.cons_append, exec, writes]
      by_cases h : (A.write x s).1 = true
      · simp only [h, if_true]
        exact ih _
      · simp only [h]
        rfl

theorem exec_reads (n : Nat) (rest : List Step) (s : α) :
    exec A (reads (n + 1) ++ rest) s =
      ((exec A rest (readN A (n + 1) s).2).1, (readN A (n + 1) s).1 ++ (exec A rest (readN A (n + 1) s).2).2.1,
        (exec A rest (readN A (n + 1) s).2).2.2) := by
  induction n generalizing s with
  | zero => simp [reads, exec, readN]
  | succ n ih =>
      have e : reads (n + 1 + 1) = .read true :: reads (n + 1) := by simp [reads, List.replicate_succ]
      rw [e, List.cons_append, exec, ih, show readN A (n + 1 + 1) s = ((A.read s).1 :: (readN A (n + 1) (A.acked (decide (n + 1 ≠ 0)) (A.read s).2)).1,
        (readN A (n + 1) (A.acked (decide (n + 1 ≠ 0)) (A.read s).2)).2) from rfl]
      simp only [ne_eq, Nat.add_one_ne_zero, not_false_eq_true, decide_true, List.cons_append]

theorem stored_nil (mem : Nat → Byte) (p : Nat) : stored mem p [] = mem := by
  funext a; simp [stored]

theorem stored_cons (mem : Nat → Byte) (p : Nat) (b : Byte) (r : List Byte) :
    stored mem p (b :: r) = stored (Function.update mem p b) (p + 1) r := by
  funext a
  unfold stored
  by_cases h : p + 1 ≤ a
  · rw [if_pos (by omega), if_pos h]
    obtain ⟨d, rfl⟩ := Nat.exists_eq_add_of_le h
    rw [show p + 1 + d - p = d + 1 by omega, show p + 1 + d - (p + 1) = d by omega, List.getD_cons_succ,
      Function.update_of_ne (by omega)]
  · rw [if_neg h]
    by_cases h' : p ≤ a
    · have : a = p := by omega
      subst this
      simp
    · rw [if_neg h', Function.update_of_ne (by omega)]

theorem address_write (a : Byte) : (a <<< 1 &&& 0xfe#8) ||| 0#8 = a <<< 1 := by
  revert a; decide +kernel

theorem address_write' (a : Byte) : a <<< 1 &&& 0xfe#8 = a <<< 1 := by
  revert a; decide +kernel

theorem address_read (a : Byte) : (a <<< 1 &&& 0xfe#8) ||| 1#8 = a <<< 1 ||| 1#8 := by
  revert a; decide +kernel

/-- The part that reads. -/
theorem ideal_read (k : Nat) (t : τ) (s : α) (mem : Nat → Byte) (address : Byte) (p n : Nat) (state : τ → State)
    (hs : (T.starting t).1 = ⟨address <<< 1, .read⟩) (hr : (T.reading (T.starting t).2).1 = ⟨some p, n, .stop⟩) (hn : n ≠ 0)
    (hd : ∀ c t, state (T.detaching c t) = detachState c) :
    ∃ r, ideal A T (k + 3) .restart t s mem = some (true, r) ∧
      Happened A (.start (address <<< 1 ||| 1#8) :: (reads n ++ [.stop])) s mem p state r := by
  have ha : addressByte (T.starting t).1 = address <<< 1 ||| 1#8 := by rw [addressByte, hs]; simp [address_read]
  have hop : (T.starting t).1.next = .read := by rw [hs]
  obtain ⟨m, rfl⟩ := Nat.exists_eq_succ_of_ne_zero hn
  cases hk : (A.address (address <<< 1 ||| 1#8) (A.start s)).1
  · refine ⟨_, by simp only [ideal, ha, hk]; rfl, ?_⟩
    constructor <;> simp [exec, hk, hd, detachState, errorOf, stored_nil]
  · refine ⟨_, by simp only [ideal, ha, hk, hop, fetch, hr]; simp; rfl, ?_⟩
    constructor <;> simp [exec, hk, hd, detachState, errorOf, exec_reads]

/-- The whole of a transaction that writes. -/
theorem ideal_write (k : Nat) (t : τ) (s : α) (mem : Nat → Byte) (address : Byte) (wb : Option Nat) (ws p n : Nat) (state : τ → State)
    (hs : (T.starting t).1 = ⟨address <<< 1, .write⟩)
    (hw : (T.writing (T.starting t).2).1 = ⟨wb, ws, if n ≠ 0 then .restart else .stop⟩)
    (hs2 : n ≠ 0 → (T.starting (T.writing (T.starting t).2).2).1 = ⟨address <<< 1, .read⟩)
    (hr : n ≠ 0 → (T.reading (T.starting (T.writing (T.starting t).2).2).2).1 = ⟨some p, n, .stop⟩)
    (hd : ∀ c t, state (T.detaching c t) = detachState c) :
    ∃ r, ideal A T (k + 5) .restart t s mem = some (true, r) ∧
      Happened A (.start (address <<< 1) :: ((bytesOf mem wb ws).map .write ++
        ((if n ≠ 0 then .start (address <<< 1 ||| 1#8) :: reads n else []) ++ [.stop]))) s mem p state r := by
  have ha : addressByte (T.starting t).1 = address <<< 1 := by rw [addressByte, hs]; simp [address_write']
  have hop : (T.starting t).1.next = .write := by rw [hs]
  cases hk : (A.address (address <<< 1) (A.start s)).1
  · refine ⟨_, by simp only [ideal, ha, hk]; rfl, ?_⟩
    constructor <;> simp [exec, hk, hd, detachState, errorOf, stored_nil]
  · obtain ⟨s1, hs1⟩ : ∃ s1, s1 = (A.address (address <<< 1) (A.start s)).2 := ⟨_, rfl⟩
    have e2 : ∀ rest, exec A (.start (address <<< 1) :: rest) s = exec A rest s1 := by
      intro rest
      rw [exec]; simp [hk, hs1]
    have e3 : ∀ k, ideal A T (k + 1) .restart t s mem = ideal A T k (.write ⟨wb, ws, if n ≠ 0 then .restart else .stop⟩)
        (T.writing (T.starting t).2).2 s1 mem := by
      intro k
      simp only [ideal, ha, hk, hop, fetch, hw, ← hs1]
      simp
    rw [e3]
    cases hwr : (writes A (bytesOf mem wb ws) s1).1
    · refine ⟨_, by simp only [ideal, hwr]; rfl, ?_⟩
      constructor <;> simp only [e2, exec_writes, hwr, errorOf, hd, detachState] <;> simp [stored_nil]
    · by_cases hn : n = 0
      · subst hn
        refine ⟨_, by simp only [ideal, hwr, fetch]; simp [ideal]; rfl, ?_⟩
        constructor <;> simp only [e2, exec_writes, hwr] <;> simp [exec, errorOf, stored_nil, hd, detachState]
      · obtain ⟨r, hr1, hr2⟩ := ideal_read A T k (T.writing (T.starting t).2).2 (writes A (bytesOf mem wb ws) s1).2 mem address p n state
          (hs2 hn) (hr hn) hn hd
        refine ⟨r, ?_, ?_⟩
        · rw [ideal]
          simp only [hwr, if_true, hn, ne_eq, not_false_eq_true, fetch, hr1]
          rfl
        · have e4 : exec A (.start (address <<< 1) :: ((bytesOf mem wb ws).map .write ++
              ((if n ≠ 0 then .start (address <<< 1 ||| 1#8) :: reads n else []) ++ [.stop]))) s
              = exec A (.start (address <<< 1 ||| 1#8) :: (reads n ++ [.stop])) (writes A (bytesOf mem wb ws) s1).2 := by
            rw [e2, exec_writes, hwr]
            simp [hn]
          constructor
          · rw [e4]; exact hr2.app
          · rw [e4]; exact hr2.state
          · rw [e4]; exact hr2.error
          · rw [e4]; exact hr2.mem

/-- A transaction without data. -/
theorem ideal_ping (k : Nat) (t : τ) (s : α) (mem : Nat → Byte) (address : Byte) (p : Nat) (state : τ → State)
    (hs : (T.starting t).1 = ⟨address <<< 1, .stop⟩) (hd : ∀ c t, state (T.detaching c t) = detachState c) :
    ∃ r, ideal A T (k + 2) .restart t s mem = some (true, r) ∧ Happened A [.start (address <<< 1), .stop] s mem p state r := by
  have ha : addressByte (T.starting t).1 = address <<< 1 := by rw [addressByte, hs]; simp [address_write']
  have hop : (T.starting t).1.next = .stop := by rw [hs]
  cases hk : (A.address (address <<< 1) (A.start s)).1
  · refine ⟨_, by simp only [ideal, ha, hk]; rfl, ?_⟩
    constructor <;> simp [exec, hk, hd, detachState, errorOf, stored_nil]
  · refine ⟨_, by simp only [ideal, ha, hk, hop, fetch]; simp; rfl, ?_⟩
    constructor <;> simp [exec, hk, hd, detachState, errorOf, stored_nil]

/-- An `I2cWriteReadTransaction`. -/
theorem ideal_writeRead (s : α) (mem : Nat → Byte) (t : WriteRead) (address : Byte) (wb ws rb rs : Nat) (ht : t.address = address <<< 1)
    (h1 : t.readBuffer = if rs = 0 then none else some rb) (h2 : t.readSize = rs) (h3 : t.writeBuffer = if ws = 0 then none else some wb)
    (h4 : t.writeSize = ws) (h5 : t.isReading = decide (ws = 0)) :
    ∃ r, ideal A writeRead 5 .restart t s mem = some (true, r) ∧
      Happened A (transfer address (bytesAt mem wb ws) rs) s mem rb WriteRead.state r := by
  have hd : ∀ c t, WriteRead.state (writeRead.detaching c t) = detachState c := fun c t => rfl
  by_cases hws : ws = 0
  · subst hws
    by_cases hrs : rs = 0
    · subst hrs
      exact ideal_ping A writeRead 3 t s mem address rb WriteRead.state (by simp [writeRead, ht, h5, h2]) hd
    · have e : transfer address (bytesAt mem wb 0) rs = .start (address <<< 1 ||| 1#8) :: (reads rs ++ [.stop]) := by
        simp [transfer, bytesAt, hrs]
      rw [e]
      exact ideal_read A writeRead 2 t s mem address rb rs WriteRead.state (by simp [writeRead, ht, h5, h2, hrs])
        (by simp [writeRead, h1, h2, hrs, lengthOf]) hrs hd
  · have hb : bytesOf mem (some wb) ws = bytesAt mem wb ws := rfl
    have e : transfer address (bytesAt mem wb ws) rs = .start (address <<< 1) :: ((bytesOf mem (some wb) ws).map .write ++
        ((if rs ≠ 0 then .start (address <<< 1 ||| 1#8) :: reads rs else []) ++ [.stop])) := by
      have hne : bytesAt mem wb ws ≠ [] := by simp [bytesAt, hws]
      simp [transfer, hne, hb]
    rw [e]
    refine ideal_write A writeRead 0 t s mem address (some wb) ws rb rs WriteRead.state (by simp [writeRead, ht, h5, h4, hws])
      (by simp [writeRead, h3, h4, h2, hws, lengthOf]) ?_ ?_ hd
    · intro hn
      simp [writeRead, ht, h2, hn]
    · intro hn
      simp [writeRead, h1, h2, hn, lengthOf]

/-- An `I2cWriteTransaction`. -/
theorem ideal_onlyWrite (s : α) (mem : Nat → Byte) (t : OneWay) (address : Byte) (p n : Nat) (ht : t.address = address <<< 1)
    (h1 : t.buffer = if n = 0 then none else some p) (h2 : t.size = n) :
    ∃ r, ideal A onlyWrite 5 .restart t s mem = some (true, r) ∧
      Happened A (transfer address (bytesAt mem p n) 0) s mem 0 OneWay.state r := by
  have hd : ∀ c t, OneWay.state (onlyWrite.detaching c t) = detachState c := fun c t => rfl
  by_cases hn : n = 0
  · subst hn
    exact ideal_ping A onlyWrite 3 t s mem address 0 OneWay.state (by simp [onlyWrite, ht, h2]) hd
  · have hb : bytesOf mem (some p) n = bytesAt mem p n := rfl
    have e : transfer address (bytesAt mem p n) 0 = .start (address <<< 1) :: ((bytesOf mem (some p) n).map .write ++
        ((if 0 ≠ 0 then .start (address <<< 1 ||| 1#8) :: reads 0 else []) ++ [.stop])) := by
      have hne : bytesAt mem p n ≠ [] := by simp [bytesAt, hn]
      simp [transfer, hne, hb]
    rw [e]
    exact ideal_write A onlyWrite 0 t s mem address (some p) n 0 0 OneWay.state (by simp [onlyWrite, ht, h2, hn])
      (by simp [onlyWrite, h1, h2, hn, lengthOf]) (by simp) (by simp) hd

/-- An `I2cReadTransaction`. -/
theorem ideal_onlyRead (s : α) (mem : Nat → Byte) (t : OneWay) (address : Byte) (p n : Nat) (ht : t.address = address <<< 1)
    (h1 : t.buffer = if n = 0 then none else some p) (h2 : t.size = n) :
    ∃ r, ideal A onlyRead 5 .restart t s mem = some (true, r) ∧
      Happened A (transfer address [] n) s mem p OneWay.state r := by
  have hd : ∀ c t, OneWay.state (onlyRead.detaching c t) = detachState c := fun c t => rfl
  by_cases hn : n = 0
  · subst hn
    exact ideal_ping A onlyRead 3 t s mem address p OneWay.state (by simp [onlyRead, ht, h2]) hd
  · have e : transfer address [] n = .start (address <<< 1 ||| 1#8) :: (reads n ++ [.stop]) := by
      simp [transfer, hn]
    rw [e]
    exact ideal_read A onlyRead 2 t s mem address p n OneWay.state (by simp [onlyRead, ht, h2, hn])
      (by simp [onlyRead, h1, h2, hn, lengthOf]) hn hd

/-- The objects are of the types of the interface. -/
theorem typed_writeRead (bits : Nat) : Typed writeRead (fun t => t.readSize < 2 ^ bits ∧ t.writeSize < 2 ^ bits) bits := by
  have hl : ∀ (b : Option Nat) n m, n < m → lengthOf b n < m := by
    intro b n m h
    cases b <;> simp [lengthOf] <;> omega
  refine ⟨?_, ?_, ?_⟩
  · intro t h
    refine ⟨?_, h⟩
    simp only [writeRead]
    split <;> split <;> simp
  · intro t h
    refine ⟨?_, hl _ _ _ h.2, h⟩
    simp only [writeRead]
    split <;> simp
  · intro t h
    exact ⟨by simp [writeRead], by simp [writeRead], hl _ _ _ h.1, h⟩

theorem typed_onlyWrite (bits : Nat) : Typed onlyWrite (fun t => t.size < 2 ^ bits) bits := by
  have hl : ∀ (b : Option Nat) n m, n < m → lengthOf b n < m := by
    intro b n m h
    cases b <;> simp [lengthOf] <;> omega
  refine ⟨?_, ?_, ?_⟩
  · intro t h
    refine ⟨?_, h⟩
    simp only [onlyWrite]
    split <;> simp
  · intro t h
    exact ⟨by simp [onlyWrite], hl _ _ _ h, h⟩
  · intro t h
    exact ⟨by simp [onlyWrite], by simp [onlyWrite], Nat.two_pow_pos bits, h⟩

theorem typed_onlyRead (bits : Nat) : Typed onlyRead (fun t => t.size < 2 ^ bits) bits := by
  have hl : ∀ (b : Option Nat) n m, n < m → lengthOf b n < m := by
    intro b n m h
    cases b <;> simp [lengthOf] <;> omega
  refine ⟨?_, ?_, ?_⟩
  · intro t h
    refine ⟨?_, h⟩
    simp only [onlyRead]
    split <;> simp
  · intro t h
    exact ⟨by simp [onlyRead], Nat.two_pow_pos bits, h⟩
  · intro t h
    exact ⟨by simp [onlyRead], by simp [onlyRead], hl _ _ _ h, h⟩

end Lemmas.I2cMaster
