import Verif.Model.AvrUart
import Verif.Spec.AvrUart

set_option autoImplicit false

/-!
# UART of the AVR: C292, C293
-/

namespace Props.AvrUart

open Modm.AvrUart Modm.AvrUart.Spec

variable {α : Type}

/-! ## Sending -/

/-- What is to be sent is on the wire, in the hardware, dropped, or in the queue. -/
private structure Inv (s : Tx α) (pre : List α) : Prop where
  eq : s.wire ++ s.sh.toList ++ s.udr.toList ++ pre ++ s.q = accepted s.log
  drop : ∀ i, s.pc = .drop i → pre.length = i ∧ s.udrie = false
  keep : (∀ i, s.pc ≠ .drop i) → pre = []
  wake : s.pc = .idle → s.q ≠ [] → s.udrie = true
  flag : s.pc = .flag → s.q = []

private theorem inv_step {n : Nat} {s s' : Tx α} {pre : List α} (h : Inv s pre) {a : Act α} (e : step n s a = some s') :
    ∃ pre', Inv s' pre' := by
  obtain ⟨q, udrie, udr, sh, wire, pc, log⟩ := s
  obtain ⟨h1, h2, h3, h4, h5⟩ := h
  simp only at h1 h2 h3 h4 h5
  cases a with
  | write x =>
    simp only [step] at e
    split at e
    · next hp =>
      subst hp
      have hk := h3 (by intro i; simp)
      subst hk
      split at e <;> cases e
      · exact ⟨[], by simp [accepted, ← h1], by simp, by simp, by simp, by simp⟩
      · exact ⟨[], by simpa [accepted] using h1, by simp, by simp, by simpa using h4, by simp⟩
    · cases e
  | isWriteFinished =>
    simp only [step] at e
    split at e
    · next hp =>
      subst hp
      have hk := h3 (by intro i; simp)
      subst hk
      split at e <;> cases e
      · next hq => exact ⟨[], by simpa using h1, by simp, by simp, by simp, by simpa using hq⟩
      · exact ⟨[], by simpa [accepted] using h1, by simp, by simp, by simpa using h4, by simp⟩
    · cases e
  | discard =>
    simp only [step] at e
    split at e
    · next hp =>
      subst hp
      have hk := h3 (by intro i; simp)
      subst hk
      cases e
      exact ⟨[], by simpa using h1, by simp, by simp, by simp, by simp⟩
    · cases e
  | go =>
    cases pc with
    | idle => cases e
    | enable =>
      have hk := h3 (by intro i; simp)
      subst hk
      cases e
      exact ⟨[], by simpa using h1, by simp, by simp, by simp, by simp⟩
    | flag =>
      have hk := h3 (by intro i; simp)
      subst hk
      have hq := h5 rfl
      subst hq
      cases e
      exact ⟨[], by simpa [accepted] using h1, by simp, by simp, by simp, by simp⟩
    | drop i =>
      obtain ⟨hp, hu⟩ := h2 i rfl
      cases q with
      | nil =>
        cases e
        refine ⟨[], ?_, by simp, by simp, by simp, by simp⟩
        simp only [accepted, ← h1, List.append_nil]
        have : (wire ++ sh.toList ++ udr.toList ++ pre).length - i = (wire ++ sh.toList ++ udr.toList).length := by
          simp only [List.length_append]; omega
        rw [this, List.take_append_of_le_length (Nat.le_refl _), List.take_length]
      | cons x q =>
        cases e
        refine ⟨pre ++ [x], by simp [← h1], ?_, by simp, by simp, by simp⟩
        intro j hj
        cases hj
        exact ⟨by simp [hp], hu⟩
  | isr =>
    simp only [step] at e
    split at e
    · next hc =>
      obtain ⟨hu, hr⟩ := hc
      subst hu hr
      have hd : ∀ i, pc ≠ .drop i := fun i hi => by cases (h2 i hi).2
      have hk := h3 hd
      subst hk
      cases e
      cases q with
      | nil => exact ⟨[], by simpa [isr] using h1, fun i hi => absurd hi (hd i), fun _ => rfl, by simp [isr], by simp [isr]⟩
      | cons x q =>
        refine ⟨[], by simpa [isr] using h1, fun i hi => absurd hi (hd i), fun _ => rfl, by simp [isr], ?_⟩
        intro hf
        cases h5 hf
    · cases e
  | load =>
    simp only [step] at e
    split at e
    · next hc =>
      obtain ⟨hs, -⟩ := hc
      subst hs
      cases e
      exact ⟨pre, by simpa using h1, h2, h3, h4, h5⟩
    · cases e
  | out =>
    simp only [step] at e
    split at e
    · cases e
      exact ⟨pre, by simpa using h1, h2, h3, h4, h5⟩
    · cases e

private theorem inv_run {n : Nat} (l : List (Act α)) {s s' : Tx α} {pre : List α} (h : Inv s pre) (e : run n s l = some s') :
    ∃ pre', Inv s' pre' := by
  induction l generalizing s pre with
  | nil => cases e; exact ⟨pre, h⟩
  | cons a l ih =>
    simp only [run, Option.bind_eq_some_iff] at e
    obtain ⟨t, e1, e2⟩ := e
    obtain ⟨p, hp⟩ := inv_step h e1
    exact ih hp e2

private theorem inv_of {n : Nat} {l : List (Act α)} {s : Tx α} (e : run n {} l = some s) : ∃ pre, Inv s pre :=
  inv_run l (pre := []) ⟨rfl, by simp, fun _ => rfl, by simp, by simp⟩ e

/-- C292: in every execution, between two calls of the main program, the bytes accepted by `write` and not
discarded are, in this order: on the wire, in the two registers of the hardware, in the queue. -/
theorem C292_order {n : Nat} {l : List (Act α)} {s : Tx α} (e : run n {} l = some s) (hp : s.pc = .idle) :
    s.wire ++ s.sh.toList ++ s.udr.toList ++ s.q = accepted s.log := by
  obtain ⟨pre, h⟩ := inv_of e
  have := h.keep (by intro i; simp [hp])
  subst this
  simpa using h.eq

/-- Three bytes for a queue of two, sent while they are written, one of them discarded. -/
example : ((run 2 ({} : Tx Nat) [.write 1, .isr, .go]).isNone = true) ∧
    (run 2 ({} : Tx Nat) [.write 1, .go, .isr, .load, .write 2, .isr, .go, .write 3, .out, .go, .discard, .go, .load, .go, .out]) =
      some { wire := [1, 2], log := [.discarded 1, .wrote 3, .wrote 2, .wrote 1] } := by
  constructor <;> rfl

/-- The rest of the work of handler and hardware. -/
private def work (s : Tx α) : Nat := 3 * s.q.length + 2 * s.udr.toList.length + s.sh.toList.length + (if s.udrie then 1 else 0)

private theorem work_step {n : Nat} {s s' : Tx α} {a : Act α} (ha : Device a = true) (e : step n s a = some s') : work s' + 1 = work s := by
  obtain ⟨q, udrie, udr, sh, wire, pc, log⟩ := s
  cases a with
  | write x => cases ha
  | isWriteFinished => cases ha
  | discard => cases ha
  | go => cases ha
  | isr =>
    simp only [step] at e
    split at e
    · next hc =>
      obtain ⟨hu, hr⟩ := hc
      subst hu hr
      cases e
      cases q with
      | nil => simp [isr, work]
      | cons x q => simp [isr, work]; omega
    · cases e
  | load =>
    simp only [step] at e
    split at e
    · next hc =>
      obtain ⟨hs, hu⟩ := hc
      subst hs
      cases e
      cases udr with
      | none => exact absurd rfl hu
      | some x => simp [work]; omega
    · cases e
  | out =>
    simp only [step] at e
    split at e
    · next hu =>
      cases e
      cases sh with
      | none => exact absurd rfl hu
      | some x => simp [work]; omega
    · cases e

/-- C292: everything is sent.  Whenever the main program leaves the UART alone, the handler and the hardware
come to an end after at most three steps for every byte of the queue and four more; then all that was
accepted is on the wire, and `isWriteFinished` returns true. -/
theorem C292_drains {n : Nat} {l l' : List (Act α)} {s s' : Tx α} (e : run n {} l = some s) (hp : s.pc = .idle)
    (hd : l'.all Device = true) (e' : run n s l' = some s') :
    l'.length ≤ 3 * s.q.length + 4 ∧
      ((∀ a, Device a = true → step n s' a = none) → s'.wire = accepted s.log ∧
        run n s' [.isWriteFinished, .go] = some { s' with log := .finished true :: s.log }) := by
  have hw : work s' + l'.length = work s ∧ s'.pc = .idle ∧ s'.log = s.log := by
    clear e
    induction l' generalizing s with
    | nil => cases e'; exact ⟨rfl, hp, rfl⟩
    | cons a l' ih =>
      simp only [run, Option.bind_eq_some_iff] at e'
      obtain ⟨t, e1, e2⟩ := e'
      simp only [List.all_cons, Bool.and_eq_true] at hd
      have hk : t.pc = s.pc ∧ t.log = s.log := by
        clear ih e2
        have hd1 := hd.1
        cases a <;> first | cases hd1 | skip
        all_goals simp only [step] at e1
        all_goals split at e1
        all_goals first | cases e1 | skip
        all_goals first | exact ⟨rfl, rfl⟩ | (simp only [isr]; split <;> exact ⟨rfl, rfl⟩)
      have hs := work_step hd.1 e1
      obtain ⟨i1, i2, i3⟩ := ih (by rw [hk.1, hp]) hd.2 e2
      exact ⟨by simp only [List.length_cons]; omega, i2, by rw [i3, hk.2]⟩
  obtain ⟨h1, h2, h3⟩ := hw
  constructor
  · have : work s ≤ 3 * s.q.length + 4 := by
      have a1 : s.udr.toList.length ≤ 1 := by cases s.udr <;> simp
      have a2 : s.sh.toList.length ≤ 1 := by cases s.sh <;> simp
      unfold work
      split <;> omega
    omega
  · intro hb
    obtain ⟨p0, i0⟩ := inv_of e
    obtain ⟨pre, i⟩ := inv_run l' i0 e'
    have hk := i.keep (by intro j; simp [h2])
    subst hk
    have hsh : s'.sh = none := by
      cases hs : s'.sh with
      | none => rfl
      | some x => have := hb .out rfl; simp [step, hs] at this
    have hudr : s'.udr = none := by
      cases hs : s'.udr with
      | none => rfl
      | some x => have := hb .load rfl; simp [step, hs, hsh] at this
    have hue : s'.udrie = false := by
      cases hs : s'.udrie with
      | false => rfl
      | true => have := hb .isr rfl; simp [step, hs, hudr] at this
    have hq : s'.q = [] := by
      cases hs : s'.q with
      | nil => rfl
      | cons x q => have := i.wake h2 (by simp [hs]); rw [hue] at this; cases this
    have heq := i.eq
    rw [h3] at heq
    simp only [hsh, hudr, hq, Option.toList_none, List.append_nil] at heq
    refine ⟨heq, ?_⟩
    obtain ⟨q, udrie, udr, sh, wire, pc, log⟩ := s'
    simp only at h2 h3 hue hq
    subst h2 h3 hue hq
    rfl

/-- Two bytes in the queue: seven steps. -/
example : (run 2 ({} : Tx Nat) [.write 1, .go, .write 2, .go]).map (·.q) = some [1, 2] ∧
    (run 2 ({} : Tx Nat) [.write 1, .go, .write 2, .go, .isr, .load, .isr, .out, .load, .isr, .out]).map (fun s => (s.wire, s.udrie)) =
      some ([1, 2], false) := by constructor <;> rfl

/-- C292: `write` is refused only if the queue is full, and then nothing changes. -/
theorem C292_refused {n : Nat} {s s' : Tx α} {x : α} (e : step n s (.write x) = some s') (h : s'.log = .refused x :: s.log) :
    n ≤ s.q.length ∧ s' = { s with log := .refused x :: s.log } := by
  simp only [step] at e
  split at e
  · split at e
    · cases e; simp at h
    · cases e; exact ⟨by omega, rfl⟩
  · cases e

example : (step 1 ({ q := [4], udrie := true } : Tx Nat) (.write 5)).map (·.log) = some [.refused 5] := rfl

/-- As long as nothing is discarded the interrupt is enabled while the data register is full. -/
private theorem busy_run {n : Nat} (l : List (Act α)) (hd : ∀ a ∈ l, a ≠ .discard) {s s' : Tx α} (e : run n s l = some s')
    (h : (s.udr ≠ none → s.udrie = true) ∧ ∀ i, s.pc ≠ .drop i) : (s'.udr ≠ none → s'.udrie = true) ∧ ∀ i, s'.pc ≠ .drop i := by
  induction l generalizing s with
  | nil => cases e; exact h
  | cons a l ih =>
    simp only [run, Option.bind_eq_some_iff] at e
    obtain ⟨t, e1, e2⟩ := e
    refine ih (fun b hb => hd b (List.mem_cons_of_mem _ hb)) e2 ?_
    have ha := hd a List.mem_cons_self
    obtain ⟨q, udrie, udr, sh, wire, pc, log⟩ := s
    obtain ⟨h1, h2⟩ := h
    simp only at h1 h2
    cases a with
    | write x =>
      simp only [step] at e1
      split at e1
      · split at e1 <;> cases e1
        · exact ⟨h1, by simp⟩
        · exact ⟨h1, h2⟩
      · cases e1
    | isWriteFinished =>
      simp only [step] at e1
      split at e1
      · split at e1 <;> cases e1
        · exact ⟨h1, by simp⟩
        · exact ⟨h1, h2⟩
      · cases e1
    | discard => exact absurd rfl ha
    | go =>
      cases pc with
      | idle => cases e1
      | enable => cases e1; exact ⟨fun _ => rfl, by simp⟩
      | flag => cases e1; exact ⟨h1, by simp⟩
      | drop i => exact absurd rfl (h2 i)
    | isr =>
      simp only [step] at e1
      split at e1
      · next hc =>
        obtain ⟨hu, hr⟩ := hc
        subst hu hr
        cases e1
        cases q with
        | nil => exact ⟨by simp [isr], h2⟩
        | cons x q => exact ⟨by simp [isr], h2⟩
      · cases e1
    | load =>
      simp only [step] at e1
      split at e1
      · cases e1; exact ⟨by simp, h2⟩
      · cases e1
    | out =>
      simp only [step] at e1
      split at e1
      · cases e1; exact ⟨h1, h2⟩
      · cases e1

/-- C292, in part: when `isWriteFinished` returns true, and with it `flushWriteBuffer` and `writeBlocking`
end, all that was accepted is on the wire except for the last byte; the last two if bytes were discarded.
What is missing is that the last byte has been sent as well. -/
theorem C292_finished_partial {n : Nat} {l : List (Act α)} {s s' : Tx α} (e : run n {} l = some s) (e1 : step n s .go = some s')
    (hf : s'.log = .finished true :: s.log) :
    ∃ rest, s'.wire ++ rest = accepted s'.log ∧ rest.length ≤ 2 ∧ ((∀ a ∈ l, a ≠ .discard) → rest.length ≤ 1) := by
  obtain ⟨pre, i⟩ := inv_of e
  obtain ⟨pre', i'⟩ := inv_step i e1
  have hp : s.pc = .flag := by
    cases h : s.pc with
    | idle => simp [step, h] at e1
    | enable =>
      simp only [step, h, Option.some.injEq] at e1
      subst e1
      simp at hf
    | flag => rfl
    | drop i =>
      simp only [step, h] at e1
      split at e1 <;> (cases e1; simp at hf)
  have hq := i.flag hp
  simp only [step, hp, Option.some.injEq] at e1
  subst e1
  have hu : s.udrie = false := by simpa using hf
  have hk := i'.keep (by simp)
  subst hk
  have heq := i'.eq
  simp only [hq, List.append_nil] at heq
  refine ⟨s.sh.toList ++ s.udr.toList, by simpa using heq, ?_, ?_⟩
  · have a1 : s.udr.toList.length ≤ 1 := by cases s.udr <;> simp
    have a2 : s.sh.toList.length ≤ 1 := by cases s.sh <;> simp
    simp only [List.length_append]; omega
  · intro hd
    have hb := (busy_run l hd e ⟨by simp, by simp⟩).1
    have : s.udr = none := by
      cases h : s.udr with
      | none => rfl
      | some x => have := hb (by simp [h]); rw [hu] at this; cases this
    rw [this]
    cases s.sh <;> simp

/-- C292 is false in full: one byte is written; `isWriteFinished` returns true when the byte has just been
moved to the shift register, and nothing is on the wire. -/
theorem C292_finished_counterexample (n : Nat) (hn : 0 < n) (x : α) :
    ∃ s, run n {} [.write x, .go, .isr, .load, .isr, .isWriteFinished, .go] = some s ∧
      s.log = [.finished true, .wrote x] ∧ s.wire = [] := by
  refine ⟨{ sh := some x, log := [.finished true, .wrote x] }, ?_, rfl, rfl⟩
  simp [run, step, isr, hn]

/-! ## Receiving -/

/-- The frames that arrive. -/
private def frames : List (RAct α) → List (α × Bool)
  | [] => []
  | .frame x b :: l => (x, b) :: frames l
  | _ :: l => frames l

private theorem readMany_eq (q : List α) (k : Nat) : (readMany q k).1 ++ (readMany q k).2 = q := by
  induction k generalizing q with
  | zero => simp [readMany]
  | succ k ih =>
    cases q with
    | nil => rfl
    | cons x q => simp [readMany, ih]

private theorem readMany_len (q : List α) (k : Nat) : (readMany q k).1.length = min k q.length := by
  induction k generalizing q with
  | zero => simp [readMany]
  | succ k ih =>
    cases q with
    | nil => simp [readMany]
    | cons x q => simp [readMany, ih]

/-- C293: `read` returns as many bytes as are there, the oldest ones, at most the number wanted. -/
theorem C293_read (n : Nat) (s : Rx α) (k : Nat) :
    ∃ s', rstep n s (.read k) = some s' ∧ s'.got = s.got ++ s.q.take k ∧ s'.q = s.q.drop k := by
  have h : readMany s.q k = (s.q.take k, s.q.drop k) := by
    have e := readMany_eq s.q k
    have hl := readMany_len s.q k
    have h1 : (readMany s.q k).1 = s.q.take k := by
      conv => rhs; rw [← e]
      by_cases hk : k ≤ s.q.length
      · rw [List.take_append_of_le_length (by omega), List.take_of_length_le (by omega)]
      · have h2 : (readMany s.q k).2 = [] := by
          have := congrArg List.length e
          simp only [List.length_append] at this
          exact List.length_eq_zero_iff.mp (by omega)
        rw [h2, List.append_nil, List.take_of_length_le (by omega)]
    have h2 : (readMany s.q k).2 = s.q.drop k := by
      have h3 := List.take_append_drop k s.q
      rw [← h1] at h3
      exact List.append_cancel_left (e.trans h3.symm)
    rw [← h1, ← h2]
  exact ⟨_, rfl, by simp [h], by simp [h]⟩

example : (rstep 4 ({ q := [1, 2, 3] } : Rx Nat) (.read 2)).map (fun s => (s.got, s.q)) = some ([1, 2], [3]) := rfl

private theorem order_run {n : Nat} (l : List (RAct α)) {s s' : Rx α} (e : rrun n s l = some s') {a : List α}
    (h : (s.got ++ s.q ++ s.hw.map (·.1)).Sublist a) : (s'.got ++ s'.q ++ s'.hw.map (·.1)).Sublist (a ++ arrived l) := by
  induction l generalizing s a with
  | nil => cases e; simpa [arrived] using h
  | cons b l ih =>
    simp only [rrun, Option.bind_eq_some_iff] at e
    obtain ⟨t, e1, e2⟩ := e
    obtain ⟨hw, dor, q, fe, ov, got⟩ := s
    simp only at h
    cases b with
    | frame x f =>
      have := ih (a := a ++ [x]) e2 ?_
      · simpa [arrived] using this
      · simp only [rstep] at e1
        split at e1 <;> cases e1
        · simp only [List.map_append, List.map_cons, List.map_nil, ← List.append_assoc]
          exact h.append (List.Sublist.refl _)
        · exact h.trans (List.sublist_append_left _ _)
    | isr =>
      refine ih (a := a) e2 ?_
      cases hw with
      | nil => cases e1
      | cons y hw =>
        obtain ⟨x, f⟩ := y
        simp only [rstep] at e1
        split at e1 <;> cases e1
        · simpa using h
        · refine List.Sublist.trans ?_ h
          simp only [List.map_cons]
          exact (List.Sublist.refl _).append (List.sublist_cons_self _ _)
    | read k =>
      refine ih (a := a) e2 ?_
      cases e1
      simpa [readMany_eq, List.append_assoc] using h
    | discardQ =>
      refine ih (a := a) e2 ?_
      cases e1
      refine List.Sublist.trans ?_ h
      simp
    | discardHw =>
      refine ih (a := a) e2 ?_
      cases hw with
      | nil => cases e1
      | cons y hw =>
        cases e1
        refine List.Sublist.trans ?_ h
        simp only [List.map_cons]
        exact (List.Sublist.refl _).append (List.sublist_cons_self _ _)
    | ack =>
      refine ih (a := a) e2 ?_
      cases e1
      exact h

/-- C293: in every execution the bytes read are bytes that arrived, in their order, none twice. -/
theorem C293_order {n : Nat} {l : List (RAct α)} {s : Rx α} (e : rrun n {} l = some s) : s.got.Sublist (arrived l) := by
  have := order_run l e (a := []) (by simp)
  simp only [List.nil_append] at this
  refine List.Sublist.trans ?_ this
  rw [List.append_assoc]
  exact List.sublist_append_left _ _

example : (rrun 1 ({} : Rx Nat) [.frame 1 false, .frame 2 false, .isr, .isr, .read 5, .frame 3 true, .isr, .read 1]).map (fun s => (s.got, s.fe)) =
    some ([1, 3], true) := rfl

/-- Whenever the handler runs there is room in the queue. -/
def Room (n : Nat) (s : Rx α) : List (RAct α) → Prop
  | [] => True
  | a :: l => (a = .isr → s.q.length < n) ∧ ∀ t, rstep n s a = some t → Room n t l

private theorem flags_mono {n : Nat} (l : List (RAct α)) (hk : ∀ a ∈ l, Keeps a = true ∧ a ≠ .ack) {s s' : Rx α} (e : rrun n s l = some s')
    (h : (s'.dor || s'.ov) = false) : (s.dor || s.ov) = false := by
  induction l generalizing s with
  | nil => cases e; exact h
  | cons b l ih =>
    simp only [rrun, Option.bind_eq_some_iff] at e
    obtain ⟨t, e1, e2⟩ := e
    have ht := ih (fun a ha => hk a (List.mem_cons_of_mem _ ha)) e2
    have hb := hk b List.mem_cons_self
    obtain ⟨hw, dor, q, fe, ov, got⟩ := s
    cases b with
    | frame x f =>
      simp only [rstep] at e1
      split at e1 <;> cases e1
      · exact ht
      · simp at ht
    | isr =>
      cases hw with
      | nil => cases e1
      | cons y hw =>
        simp only [rstep] at e1
        split at e1 <;> (cases e1; simp at ht; simp [ht])
    | read k => cases e1; exact ht
    | discardQ => cases hb.1
    | discardHw => cases hb.1
    | ack => exact absurd rfl hb.2

/-- C293, in part: as long as nothing is discarded or acknowledged, neither the saved flag nor the hardware
shows an overrun, and there was room in the queue whenever the handler ran, no byte is lost: those that
arrived have been read, or are in the queue or the hardware.  What is missing is a queue that was full. -/
theorem C293_lossless_partial {n : Nat} {l : List (RAct α)} {s : Rx α} (e : rrun n {} l = some s)
    (hk : ∀ a ∈ l, Keeps a = true ∧ a ≠ .ack) (hr : Room n {} l) (hf : (getErrorFlags s).2 = false) (hd : s.dor = false) :
    s.got ++ s.q ++ s.hw.map (·.1) = arrived l := by
  have key : ∀ (l : List (RAct α)) (t : Rx α) (a : List α), rrun n t l = some s → (∀ a ∈ l, Keeps a = true ∧ a ≠ .ack) → Room n t l →
      t.got ++ t.q ++ t.hw.map (·.1) = a → s.got ++ s.q ++ s.hw.map (·.1) = a ++ arrived l := by
    intro l
    induction l with
    | nil => intro t a e _ _ h; cases e; simpa [arrived] using h
    | cons b l ih =>
      intro t a e hk hr h
      simp only [rrun, Option.bind_eq_some_iff] at e
      obtain ⟨u, e1, e2⟩ := e
      have hk' := fun a ha => hk a (List.mem_cons_of_mem _ ha)
      have hb := hk b List.mem_cons_self
      have hru := hr.2 u e1
      have hroom := hr.1
      have hnd := flags_mono l hk' e2 (by simpa [getErrorFlags, hd] using hf)
      clear hr
      obtain ⟨hw, dor, q, fe, ov, got⟩ := t
      simp only at h hroom
      cases b with
      | frame x f =>
        have := ih u (a ++ [x]) e2 hk' hru ?_
        · simpa [arrived] using this
        · simp only [rstep] at e1
          split at e1 <;> cases e1
          · simp [← h]
          · simp at hnd
      | isr =>
        refine ih u a e2 hk' hru ?_
        cases hw with
        | nil => cases e1
        | cons y hw =>
          simp only [rstep, hroom rfl, if_true] at e1
          cases e1
          simpa using h
      | read k =>
        refine ih u a e2 hk' hru ?_
        cases e1
        simpa [readMany_eq, List.append_assoc] using h
      | discardQ => cases hb.1
      | discardHw => cases hb.1
      | ack => exact absurd rfl hb.2
  simpa using key l {} [] e hk hr rfl

example : Room 2 ({} : Rx Nat) [.frame 1 false, .frame 2 false, .isr, .isr, .read 1] ∧
    (rrun 2 ({} : Rx Nat) [.frame 1 false, .frame 2 false, .isr, .isr, .read 1]).map (fun s => (s.got, s.q)) = some ([1], [2]) := by
  refine ⟨?_, rfl⟩
  simp [Room, rstep]

/-- C293: a frame error is reported.  As long as nothing is discarded or acknowledged and no flag is set,
the frames without stop bit are all still in the hardware. -/
theorem C293_frame {n : Nat} {l : List (RAct α)} {s : Rx α} (e : rrun n {} l = some s)
    (hk : ∀ a ∈ l, Keeps a = true ∧ a ≠ .ack) (hf : getErrorFlags s = (false, false)) (hd : s.dor = false) (x : α)
    (h : RAct.frame x true ∈ l) : (x, true) ∈ s.hw := by
  have key : ∀ (l : List (RAct α)) (t : Rx α), rrun n t l = some s → (∀ a ∈ l, Keeps a = true ∧ a ≠ .ack) →
      (t.fe = true → s.fe = true) ∧ (RAct.frame x true ∈ l ∨ (x, true) ∈ t.hw ∨ t.fe = true → (x, true) ∈ s.hw ∨ s.fe = true) := by
    intro l
    induction l with
    | nil => intro t e _; cases e; simp
    | cons b l ih =>
      intro t e hk
      simp only [rrun, Option.bind_eq_some_iff] at e
      obtain ⟨u, e1, e2⟩ := e
      have hk' := fun a ha => hk a (List.mem_cons_of_mem _ ha)
      have hb := hk b List.mem_cons_self
      have hnd := flags_mono l hk' e2 (by simpa [getErrorFlags, hd] using congrArg Prod.snd hf)
      obtain ⟨i1, i2⟩ := ih u e2 hk'
      obtain ⟨hw, dor, q, fe, ov, got⟩ := t
      simp only
      cases b with
      | frame y f =>
        simp only [rstep] at e1
        split at e1 <;> cases e1
        · refine ⟨i1, fun hc => i2 ?_⟩
          simp only [List.mem_cons, RAct.frame.injEq, List.mem_append, Prod.mk.injEq, List.not_mem_nil, or_false] at hc ⊢
          rcases hc with (⟨rfl, rfl⟩ | hc) | hc | hc
          · exact Or.inr (Or.inl (Or.inr ⟨rfl, rfl⟩))
          · exact Or.inl hc
          · exact Or.inr (Or.inl (Or.inl hc))
          · exact Or.inr (Or.inr hc)
        · simp at hnd
      | isr =>
        cases hw with
        | nil => cases e1
        | cons y hw =>
          obtain ⟨y, f⟩ := y
          have hu : u.hw = hw ∧ u.fe = (fe || f) := by
            simp only [rstep] at e1
            split at e1 <;> (cases e1; exact ⟨rfl, rfl⟩)
          rw [hu.1, hu.2] at i2
          rw [hu.2] at i1
          refine ⟨fun h => i1 (by simp [h]), fun hc => i2 ?_⟩
          simp only [List.mem_cons, reduceCtorEq, false_or, Prod.mk.injEq] at hc
          rcases hc with hc | (⟨-, rfl⟩ | hc) | hc
          · exact Or.inl hc
          · exact Or.inr (Or.inr (by simp))
          · exact Or.inr (Or.inl hc)
          · exact Or.inr (Or.inr (by simp [hc]))
      | read k =>
        cases e1
        refine ⟨i1, fun hc => i2 ?_⟩
        simpa using hc
      | discardQ => cases hb.1
      | discardHw => cases hb.1
      | ack => exact absurd rfl hb.2
  rcases (key l {} e hk).2 (Or.inl h) with hc | hc
  · exact hc
  · have := congrArg Prod.fst hf
    simp only [getErrorFlags] at this
    rw [this] at hc
    cases hc

example : (rrun 2 ({} : Rx Nat) [.frame 1 false, .frame 2 true, .isr]).map (fun s => (getErrorFlags s, s.hw)) = some ((false, false), [(2, true)]) ∧
    (rrun 2 ({} : Rx Nat) [.frame 1 false, .frame 2 true, .isr, .isr]).map getErrorFlags = some (true, false) := by constructor <;> rfl

/-- C293 is false in full: whatever the size of the queue, one more byte is lost without any error flag,
though the handler runs at once after each byte. -/
theorem C293_overflow_counterexample (n : Nat) (x : α) :
    ∃ s, rrun n {} (List.replicate (n + 1) [RAct.frame x false, .isr]).flatten = some s ∧
      getErrorFlags s = (false, false) ∧ s.dor = false ∧ s.got ++ s.q ++ s.hw.map (·.1) = List.replicate n x := by
  have key : ∀ m k, k ≤ n → rrun n ({ q := List.replicate k x } : Rx α) (List.replicate m [RAct.frame x false, .isr]).flatten =
      some { q := List.replicate (min n (k + m)) x } := by
    intro m
    induction m with
    | zero => intro k hk; simp [rrun, Nat.min_eq_right hk]
    | succ m ih =>
      intro k hk
      simp only [List.replicate_succ, List.flatten_cons, List.cons_append, List.nil_append, rrun, rstep, List.length_nil,
        Nat.zero_lt_succ, if_true, Option.bind_some, List.length_replicate, Bool.or_false]
      by_cases hlt : k < n
      · simp only [hlt, if_true, Option.bind_some]
        have := ih (k + 1) (by omega)
        rw [List.replicate_succ'] at this
        rw [this]
        congr 4
        omega
      · simp only [hlt, if_false, Option.bind_some]
        rw [ih k hk, Nat.min_eq_left (by omega), Nat.min_eq_left (by omega)]
  have := key (n + 1) 0 (by omega)
  refine ⟨_, this, rfl, rfl, ?_⟩
  simp

end Props.AvrUart
