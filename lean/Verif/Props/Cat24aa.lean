import Verif.Model.Cat24aa
/-!
C373: the EEPROM CAT24AA.
-/

set_option autoImplicit false

namespace Props.Cat24aa
open Model.Cat24aa

/-- What a user sees: a memory and whether it is storing. -/
structure Spec where
  mem : Nat → Byte
  busy : Bool

def specStep (m : Spec) : Op → Spec × Out
  | .write a d =>
    if m.busy then (m, .written false)
    else (⟨fun i => if h : a.toNat ≤ i ∧ i < a.toNat + d.length then d[i - a.toNat] else m.mem i, decide (d ≠ [])⟩, .written true)
  | .read a n => (m, .bytes (if m.busy then none else some ((List.range n).map fun i => m.mem (a.toNat + i))))
  | .stored => (⟨m.mem, false⟩, .nothing)

def specRun (m : Spec) : List Op → Spec × List Out
  | [] => (m, [])
  | o :: os => let r := specStep m o; let q := specRun r.1 os; (q.1, r.2 :: q.2)

/-- The addresses exist. -/
def inside : Op → Prop
  | .write a d => a.toNat + d.length ≤ 2048 ∧ a.toNat < 2048
  | .read a n => a.toNat + n ≤ 2048 ∧ a.toNat < 2048
  | .stored => True

/-- Bytes are written within one page. -/
def inPage : Op → Prop
  | .write a d => a.toNat % 16 + d.length ≤ 16
  | _ => True

theorem address_table : ∀ n : Fin 2048,
    address (0x50#8 ||| ((BitVec.ofNat 32 n.val >>> 8) &&& 0x07#32).setWidth 8) ((((BitVec.ofNat 32 n.val).setWidth 16) &&& 0xff#16).setWidth 8) = n.val
    ∧ (0x50#8 ||| ((BitVec.ofNat 32 n.val >>> 8) &&& 0x07#32).setWidth 8) >>> 3 = 0x0a#8 := by decide +kernel

theorem address_eq (a : BitVec 32) (h : a.toNat < 2048) :
    address (0x50#8 ||| ((a >>> 8) &&& 0x07#32).setWidth 8) (((a.setWidth 16) &&& 0xff#16).setWidth 8) = a.toNat
    ∧ (0x50#8 ||| ((a >>> 8) &&& 0x07#32).setWidth 8) >>> 3 = 0x0a#8 := by
  have := address_table ⟨a.toNat, h⟩
  simpa only [BitVec.ofNat_toNat, BitVec.setWidth_eq] using this

theorem pageWrite_eq (data : List Byte) : ∀ (mem : Nat → Byte) (a : Nat), a % 16 + data.length ≤ 16 →
    pageWrite mem a data = fun i => if h : a ≤ i ∧ i < a + data.length then data[i - a] else mem i := by
  induction data with
  | nil =>
    intro mem a _
    funext i
    rw [pageWrite, dif_neg]
    simp only [List.length_nil]; omega
  | cons b bs ih =>
    intro mem a h
    simp only [List.length_cons] at h
    rw [pageWrite]
    cases bs with
    | nil =>
      funext i
      rw [pageWrite]
      by_cases c : i = a
      · subst c
        rw [Function.update_self, dif_pos (by simp)]
        simp
      · rw [Function.update_of_ne c, dif_neg]
        simp only [List.length_cons, List.length_nil]; omega
    | cons b' bs' =>
      simp only [List.length_cons] at h
      have e : a / 16 * 16 + (a + 1) % 16 = a + 1 := by omega
      rw [e, ih _ (a + 1) (by simp only [List.length_cons]; omega)]
      funext i
      by_cases c : a + 1 ≤ i ∧ i < a + 1 + (b' :: bs').length
      · rw [dif_pos c, dif_pos (by simp only [List.length_cons] at c ⊢; omega)]
        have e2 : i - a = (i - (a + 1)) + 1 := by omega
        simp only [e2, List.getElem_cons_succ]
      · rw [dif_neg c]
        by_cases d : i = a
        · subst d
          rw [Function.update_self, dif_pos (by simp only [List.length_cons]; omega)]
          simp
        · rw [Function.update_of_ne d, dif_neg]
          simp only [List.length_cons] at c ⊢; omega

theorem sequentialRead_eq (mem : Nat → Byte) (n : Nat) : ∀ a, a + n ≤ 2048 →
    sequentialRead mem a n = (List.range n).map fun i => mem (a + i) := by
  induction n with
  | zero => intro a _; rfl
  | succ n ih =>
    intro a h
    rw [sequentialRead, List.range_succ_eq_map, List.map_cons, List.map_map]
    congr 1
    cases n with
    | zero => rfl
    | succ n =>
      rw [Nat.mod_eq_of_lt (by omega), ih (a + 1) (by omega)]
      apply List.map_congr_left
      intro i _
      show mem (a + 1 + i) = mem (a + (i + 1))
      congr 1; omega

theorem step_eq (s : State) (o : Op) (h : inside o) (hp : inPage o) :
    (⟨(step s o).1.mem, (step s o).1.busy⟩ : Spec) = (specStep ⟨s.mem, s.busy⟩ o).1 ∧ (step s o).2 = (specStep ⟨s.mem, s.busy⟩ o).2 := by
  cases o with
  | write a d =>
    obtain ⟨e1, e2⟩ := address_eq a h.2
    cases hb : s.busy
    · have hw : write s a d = (⟨0x50#8 ||| ((a >>> 8) &&& 0x07#32).setWidth 8, ((a.setWidth 16) &&& 0xff#16).setWidth 8, false,
          pageWrite s.mem a.toNat d, !d.isEmpty⟩, true) := by
        unfold write
        simp only [acknowledges, setAddress, configureWrite, getAddress, written, if_true, e1, e2, hb]
        simp
      simp only [step, hw, specStep, pageWrite_eq d s.mem a.toNat hp]
      refine ⟨?_, rfl⟩
      cases d <;> rfl
    · have hw : (write s a d).1.mem = s.mem ∧ (write s a d).1.busy = true ∧ (write s a d).2 = false := by
        unfold write
        simp only [acknowledges, setAddress, configureWrite, hb, Bool.not_true, Bool.and_false, Bool.false_eq_true, if_false]
        simp
      simp only [step, specStep, hw]
      exact ⟨rfl, rfl⟩
  | read a n =>
    obtain ⟨e1, e2⟩ := address_eq a h.2
    cases hb : s.busy
    · simp only [step, specStep, Model.Cat24aa.read, acknowledges, setAddress, configureRead, getAddress, written, e1, e2, hb]
      simp only [Bool.not_false, Bool.and_true, decide_true, if_true, Bool.false_eq_true, if_false, List.length_nil, Nat.add_zero, e1,
        Nat.mod_eq_of_lt h.2]
      exact ⟨trivial, by rw [sequentialRead_eq _ _ _ h.1]⟩
    · simp only [step, specStep, Model.Cat24aa.read, acknowledges, setAddress, configureRead, hb]
      simp only [Bool.not_true, Bool.and_false, Bool.false_eq_true, if_false, if_true]
      exact ⟨trivial, trivial⟩
  | stored => exact ⟨rfl, rfl⟩

/-- C373 (partial): after any calls, each write within one page, the EEPROM has what was written last to each address, reading
returns it, and calls while a page is stored return false and change nothing.  Missing: writes beyond the end of a page. -/
theorem C373_memory_partial (os : List Op) : ∀ (s : State), (∀ o ∈ os, inside o ∧ inPage o) →
    (⟨(run s os).1.mem, (run s os).1.busy⟩ : Spec) = (specRun ⟨s.mem, s.busy⟩ os).1 ∧ (run s os).2 = (specRun ⟨s.mem, s.busy⟩ os).2 := by
  induction os with
  | nil => intro s _; exact ⟨rfl, rfl⟩
  | cons o os ih =>
    intro s h
    obtain ⟨h1, h2⟩ := step_eq s o (h o (by simp)).1 (h o (by simp)).2
    obtain ⟨i1, i2⟩ := ih (step s o).1 (fun x hx => h x (by simp [hx]))
    simp only [run, specRun]
    rw [h1] at i1 i2
    exact ⟨i1, by rw [h2, i2]⟩

def start : State := ⟨0x50#8, 0, false, fun _ => 0xff#8, false⟩

example : (run start [.write 0x7fe#32 [1#8, 2#8], .read 0x7fd#32 3, .stored, .read 0x7fd#32 3, .write 0x010#32 [3#8], .stored, .read 0x010#32 2]).2
    = [.written true, .bytes none, .nothing, .bytes (some [0xff#8, 1#8, 2#8]), .written true, .nothing, .bytes (some [3#8, 0xff#8])] := by decide +kernel

example : ∀ o ∈ ([.write 0x7fe#32 [1#8, 2#8], .read 0x7fd#32 3, .stored] : List Op), inside o ∧ inPage o := by
  intro o h
  simp only [List.mem_cons, List.not_mem_nil, or_false] at h
  rcases h with h | h | h <;> subst h <;> simp [inside, inPage]

/-- C373 (false in general): two bytes written from address 15 on go to addresses 15 and 0, and `write()` returns true. -/
theorem C373_page_counterexample : inside (.write 15#32 [1#8, 2#8])
    ∧ (run start [.write 15#32 [1#8, 2#8], .stored, .read 15#32 2, .read 0#32 1]).2
      = [.written true, .nothing, .bytes (some [1#8, 0xff#8]), .bytes (some [2#8])]
    ∧ (specRun ⟨start.mem, start.busy⟩ [.write 15#32 [1#8, 2#8], .stored, .read 15#32 2, .read 0#32 1]).2
      = [.written true, .nothing, .bytes (some [1#8, 2#8]), .bytes (some [0xff#8])] :=
  ⟨by simp [inside], by decide +kernel, by decide +kernel⟩

end Props.Cat24aa
